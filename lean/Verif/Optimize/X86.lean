import Verif.Optimize.Spec
/-
The callbacks of x86 and LC-3b bytecodes, as far as lengths and spans go.
modules/arch/x86/x86bc.c:543-806, modules/arch/lc3b/lc3bbc.c:131-163.
-/
namespace Verif.Optimize

/-- x86arch.h:161-167 `x86_jmp_opcode_sel`. -/
inductive JmpSel where
  | none | short | near | shortForced | nearForced
  deriving DecidableEq, Repr

/-- x86arch.h `x86_jmp`.  `pre`: bytes of legacy prefixes (x86bc.c:524-541 `x86_common_calc_len`).  `op16`: the
    operand size is 16.  `outside`: the target is relative to a symbol that is not a label of this section
    (x86bc.c:725-727).  `grows`: true of the opcodes of x86insn tables: a near form is not over a byte shorter.
    `small`: opcodes have at most 3 bytes. -/
structure Jmp where
  sel : JmpSel
  pre : Nat
  shortLen : Nat
  nearLen : Nat
  op16 : Bool
  target : SVal
  outside : Bool
  grows : nearLen ≠ 0 → shortLen ≤ nearLen + 1
  small : pre + shortLen < 2 ^ 31

def Jmp.shortSize (j : Jmp) : Nat := j.pre + j.shortLen + 1
def Jmp.nearSize (j : Jmp) : Nat := j.pre + j.nearLen + if j.op16 then 2 else 4

/-- x86bc.c:689-757 `x86_bc_jmp_calc_len`.  The form is never `near` here: x86id.c:530-611 sets only `none`
    and the forced ones. -/
def Jmp.calcLen (j : Jmp) : Except String (Jmp × Nat × List Dep) :=
  if j.sel = .near then .error "not reachable"
  else if j.sel = .nearForced ∨ j.shortLen = 0 then
    if j.nearLen = 0 then .error "near jump does not exist"
    else .ok ({ j with sel := if j.shortLen = 0 then .near else j.sel }, j.nearSize, [])
  else if j.outside then
    if j.sel = .shortForced ∨ j.nearLen = 0 then
      .ok ({ j with sel := if j.sel = .none then .short else j.sel }, j.shortSize, [])
    else .ok ({ j with sel := .near }, j.nearSize, [])
  else .ok ({ j with sel := if j.sel = .none then .short else j.sel }, j.shortSize,
    [⟨1, j.target, -128 + j.shortSize, 127 + j.shortSize⟩])

/-- x86bc.c:759-788 `x86_bc_jmp_expand`. -/
def Jmp.expand (j : Jmp) (len id : Nat) : Except String (Jmp × Nat × Option (Int × Int)) :=
  if id ≠ 1 then .error "unrecognized span id"
  else if j.sel = .shortForced ∨ j.nearLen = 0 then .error "short jump out of range"
  else if j.sel = .near then .error "trying to expand an already-near jump"
  else .ok ({ j with sel := .near }, len - (j.shortLen + 1) + j.nearLen + (if j.op16 then 2 else 4), none)

/-- A part of an instruction with two forms: a displacement, byte or word (x86bc.c:566-573, 659-668), or an
    immediate, sign-extended byte or full with its opcode (587-617, 670-682).  `chosen`: the short form is in
    use and was chosen without knowing the value.  Sizes in bytes. -/
structure TwoForm where
  val : SVal
  short : Nat
  wide : Nat
  chosen : Bool
  grows : short ≤ wide

/-- An instruction: the length of its fixed parts, and its parts with two forms that calc_len cannot decide.
    That EA checking succeeded, and which parts are fixed, is decided before (`yasm_x86__expr_checkea`). -/
structure Insn where
  fixed : Nat
  disp : Option TwoForm
  imm : Option TwoForm

def TwoForm.size (t : TwoForm) : Nat := if t.chosen then t.short else t.wide
def optSize (t : Option TwoForm) : Nat := match t with | some t => t.size | none => 0
def Insn.size (i : Insn) : Nat := i.fixed + optSize i.disp + optSize i.imm

def TwoForm.choose (t : TwoForm) : TwoForm := { t with chosen := true }
def TwoForm.widen (t : TwoForm) : TwoForm := { t with chosen := false }

/-- x86bc.c:543-645 `x86_bc_insn_calc_len`. -/
def Insn.calcLen (i : Insn) : Insn × Nat × List Dep :=
  let i' : Insn := ⟨i.fixed, i.disp.map TwoForm.choose, i.imm.map TwoForm.choose⟩
  (i', i'.size,
    (match i.disp with | some t => [⟨1, t.val, -128, 127⟩] | none => []) ++
    (match i.imm with | some t => [⟨2, t.val, -128, 127⟩] | none => []))

/-- x86bc.c:647-687 `x86_bc_insn_expand`. -/
def Insn.expand (i : Insn) (len id : Nat) : Insn × Nat :=
  match id, i.disp, i.imm with
  | 1, some t, _ => if t.chosen then ({ i with disp := some t.widen }, len - t.short + t.wide) else (i, len)
  | 2, _, some t => if t.chosen then ({ i with imm := some t.widen }, len - t.short + t.wide) else (i, len)
  | _, _, _ => (i, len)

/-- Everything the optimizer meets in x86 code: jumps, instructions, and bytecodes of fixed length (far jumps
    x86bc.c:790-806, data, reserved space, included files). -/
inductive X86 where
  | jmp (j : Jmp)
  | insn (i : Insn)
  | fixed (n : Nat)

/-- The x86 callbacks. -/
def x86 : Machine X86 where
  calcLen m := match m with
    | .jmp j => match j.calcLen with
      | .ok (j', n, ds) => .ok (.jmp j', n, ds)
      | .error e => .error e
    | .insn i => .ok (.insn i.calcLen.1, i.calcLen.2.1, i.calcLen.2.2)
    | .fixed n => .ok (.fixed n, n, [])
  expand m len id _ _ _ _ := match m with
    | .jmp j => match j.expand len id with
      | .ok (j', n, k) => .ok (.jmp j', n, k)
      | .error e => .error e
    | .insn i => .ok (.insn (i.expand len id).1, (i.expand len id).2, none)
    | .fixed _ => .error "no expand"

/-- lc3bbc.c:131-163: every instruction is 2 bytes; PC-relative ones have a span that cannot expand. -/
def lc3b : Machine (Option SVal) where
  calcLen m := .ok (m, 2, match m with | some v => [⟨1, v, -510, 513⟩] | none => [])
  expand _ _ _ _ _ _ _ := .error "jump target out of range"

end Verif.Optimize
