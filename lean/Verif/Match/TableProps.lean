/-
C70: the operands of every instruction of the table are encoded.
-/
import Verif.Match.MovProps
import Verif.Match.Encoded

namespace Verif.Match

open Verif.Intnum
open Verif.Expr
open Verif.Value
open Verif.Ea
open Verif.Insn

/-! ### Facts about every entry -/

/-- The types of operands registers fit, without segment registers. -/
def registerTypes : List OpType :=
  [.reg, .rm, .simdReg, .simdRM, .crReg, .drReg, .trReg, .st0, .areg, .creg, .dreg, .cr4, .xmm0]

/-- The types only one register fits. -/
def single (g : OpInfo) : Bool :=
  decide (g.type ∈ [.st0, .xmm0, .cr4]) || decide (g.type ∈ [.areg, .creg, .dreg]) && decide (g.size ∈ [.s8, .s16, .s32, .s64])

/-- `vexByte`, `firstByte` and `secondByte` by the parameters of the name. -/
def vexOf (ps : List Byte) (f : Form) : Byte :=
  (paramsOf .setVEX f.modifiers ps).getLastD (if f.special &&& 0xF0#8 = 0xC0#8 ∨ f.special &&& 0xF0#8 = 0x80#8 then f.special else 0)
def firstOf (ps : List Byte) (f : Form) : Byte := (paramsOf .op0Add f.modifiers ps).foldl (· + ·) f.opcode.b0
def secondOf (ps : List Byte) (f : Form) : Byte :=
  (paramsOf .op1Add f.modifiers ps).foldl (· + ·) f.opcode.b1 + eightfold (paramsOf .op1AddSp f.modifiers ps)

/-- Nothing is missing for the register of this operand. -/
def operandSound (ps : List Byte) (f : Form) (g : OpInfo) (behind : List OpInfo) : Bool :=
  match g.action with
  | .none => !registerTypes.contains g.type || single g
  | .ea | .eaVEX => true
  | .spare | .spareEA | .spareVEX => f.ops.any fun h => h.action.writesEa
  | .vex => decide (vexOf ps f ≠ 0#8) && behind.all fun h => !h.action.writesV
  | .op0Add => decide (vexOf ps f = 0#8) && decide ((firstOf ps f).toNat % 8 = 0)
  | .op1Add => decide (vexOf ps f = 0#8) && decide ((secondOf ps f).toNat % 8 = 0)
  | .vexImmSrc => decide (.imm8 ∉ f.modifiers)
  | _ => !registerTypes.contains g.type

/-- What is not a register goes somewhere, too, unless nothing else is possible. -/
def kindSound (g : OpInfo) : Bool :=
  match g.type with
  | .mem | .rm | .simdRM | .memOffs | .memXMMIndex | .memYMMIndex => decide (g.action = .ea)
  | .imm => decide ((g.action = .imm ∨ g.action = .simm) ∨ g.action = .ea)
  | .immNotSegOff => decide (g.action = .imm ∨ g.action = .simm)
  | .segReg => decide (g.action = .spare)
  | _ => true

def operandsSound (ps : List Byte) (f : Form) : List OpInfo → Bool
  | [] => true
  | g :: gs => operandSound ps f g gs && kindSound g && operandsSound ps f gs

/-- The types of operands in memory, those with a fixed address left out. -/
def memoryTypes : List OpType := [.mem, .rm, .simdRM, .memOffs, .memXMMIndex, .memYMMIndex]

def formSound (ps : List Byte) (f : Form) : Bool :=
  isJump f || f.once && operandsSound ps f f.ops &&
    (!(f.ops.any fun g => memoryTypes.contains g.type) || decide (f.ops.countP (fun g => g.action.writesEa) ≤ 1))

/-- Is the name, with some suffix, marked as one of AVX? -/
def mayAvx (n : RawInsn) (g : List RawForm) : Bool :=
  [Dialect.nasm, .gas].any fun p => [none, some Suffix.z, some .b, some .w, some .l, some .q, some .s].any fun t =>
    autoFlag p n t g n.avx (fun r => r.onlyavx || r.vex.isSome)

/-- The parameters of a name. -/
def paramsOfName (n : RawInsn) : List Byte := (n.modifiers.map (BitVec.ofNat 8) ++ [0, 0, 0]).take 3

/-- The check of an entry: the form is sound, or it is one for AVX and the name is not (or the other way round), or it is the form
    of PSLLDQ and PSRLDQ that should be for AVX only. -/
def entrySound (n : RawInsn) (f : Form) : Bool :=
  formSound (paramsOfName n) f || f.onlyAvx && !mayAvx n (groups.getD n.group []) || f.notAvx && n.avx ||
    decide (n.group = 121) && !n.avx && decide (f.ops.length = 3)

def nameSound (n : RawInsn) : Bool := (groups.getD n.group []).all fun r => (r.form.toList).all (entrySound n)

set_option maxRecDepth 100000 in
theorem names0_sound : names0.all nameSound = true := by decide +kernel
set_option maxRecDepth 100000 in
theorem names1_sound : names1.all nameSound = true := by decide +kernel
set_option maxRecDepth 100000 in
theorem names2_sound : names2.all nameSound = true := by decide +kernel
set_option maxRecDepth 100000 in
theorem names3_sound : names3.all nameSound = true := by decide +kernel

theorem names_sound : ∀ n ∈ names, nameSound n = true := by
  intro n hn
  unfold names at hn
  simp only [List.mem_append] at hn
  rcases hn with ((h | h) | h) | h
  · exact List.all_eq_true.1 names0_sound n h
  · exact List.all_eq_true.1 names1_sound n h
  · exact List.all_eq_true.1 names2_sound n h
  · exact List.all_eq_true.1 names3_sound n h

theorem entry_sound {n : RawInsn} (hn : n ∈ names) {f : Form} (hf : f ∈ (groups.getD n.group []).filterMap RawForm.form) : entrySound n f = true := by
  obtain ⟨r, hr, e⟩ := List.mem_filterMap.1 hf
  have h := List.all_eq_true.1 (names_sound n hn) r hr
  rw [e] at h
  exact List.all_eq_true.1 h f (by simp)

/-! ### Names -/

/-- What an entry of a table of names has from the call it comes from. -/
theorem keyword_of {p : Dialect} {n : RawInsn} {g : List RawForm} {k : Keyword} (h : k ∈ keywords p n g) :
    k.group = g ∧ k.modData = paramsOfName n ∧ k.avx = autoFlag p n k.suffix g n.avx (fun r => r.onlyavx || r.vex.isSome) := by
  unfold keywords at h
  split at h
  · cases p with
    | nasm =>
      simp only [List.mem_singleton] at h
      subst h
      exact ⟨rfl, rfl, rfl⟩
    | gas =>
      simp only [List.mem_map] at h
      obtain ⟨t, _, e⟩ := h
      subst e
      exact ⟨rfl, rfl, rfl⟩
  · cases h

theorem mayAvx_of {p : Dialect} {n : RawInsn} {g : List RawForm} {t : Option Suffix}
    (h : autoFlag p n t g n.avx (fun r => r.onlyavx || r.vex.isSome) = true) : mayAvx n g = true := by
  unfold mayAvx
  rw [List.any_eq_true]
  refine ⟨p, by cases p <;> simp, ?_⟩
  rw [List.any_eq_true]
  exact ⟨t, by rcases t with _ | _ | _ | _ | _ | _ | _ <;> simp, h⟩

/-- The form of PSLLDQ and PSRLDQ with three operands, without V before the name. -/
def Spoilt (n : RawInsn) (f : Form) : Prop := groups.getD n.group [] = pslrldq_insn ∧ n.avx = false ∧ f.ops.length = 3

/-- A form that was chosen is sound. -/
theorem chosen_sound {n : RawInsn} (hn : n ∈ names) {a : Setting} {k : Keyword} (hk : k ∈ keywords a.parser.dialect n (groups.getD n.group []))
    {x : IdInsn} (hx : StartedBy k a x) {leave : Leave} {c : Ctx} {nequ : Nat} {f : Form} (hm : f ∈ x.group) (hf : Fits leave c nequ x f)
    (hs : ¬ Spoilt n f) : formSound x.modData f = true := by
  obtain ⟨e1, e2, e3⟩ := keyword_of hk
  have g1 : x.group = (groups.getD n.group []).filterMap RawForm.form := by rw [hx]; show k.group.filterMap _ = _; rw [e1]
  have g2 : x.modData = paramsOfName n := by rw [hx]; exact e2
  have g3 : x.avx = k.avx := by rw [hx]; rfl
  rw [g2]
  rw [g1] at hm
  have h := entry_sound hn hm
  have hav := hf.avx
  rw [g3] at hav
  unfold entrySound at h
  simp only [Bool.or_eq_true, Bool.and_eq_true, Bool.not_eq_true', decide_eq_true_eq] at h
  rcases h with ((h | ⟨h1, h2⟩) | ⟨h1, h2⟩) | ⟨⟨h1, h2⟩, h3⟩
  · exact h
  · exfalso
    cases hka : k.avx with
    | false => rw [hka, if_neg (by simp)] at hav; rw [hav] at h1; cases h1
    | true => rw [mayAvx_of (e3 ▸ hka)] at h2; cases h2
  · exfalso
    have : k.avx = true := by
      rw [e3]
      unfold autoFlag
      rw [if_pos (by unfold RawInsn.flagged; rw [h2]; simp)]
      exact h2
    rw [this, if_pos rfl] at hav
    rw [hav] at h1
    cases h1
  · exact absurd ⟨by rw [h1]; rfl, h2, h3⟩ hs

/-! ### The effective address -/

theorem ea_written {x : IdInsn} {g : OpInfo} {op : Operand} {b b' : Build} (ha : g.action.writesEa = true) (h : (step x g op b).out = .ok b') :
    b'.ea.isSome = true := by
  obtain ⟨c, h1, h2⟩ := step_out h
  obtain ⟨_, _, _, _, a5, _⟩ := after_same h2
  rw [a5]
  unfold place at h1
  have : g.action = .ea ∨ g.action = .eaVEX ∨ g.action = .spareEA := by
    unfold Action.writesEa at ha
    simpa using ha
  rcases this with e | e | e
  · rw [e] at h1
    dsimp only [Run.of] at h1
    unfold placeEa at h1
    repeat' split at h1
    all_goals first | cases h1; rfl | cases h1
  · rw [e] at h1
    dsimp only [Run.of] at h1
    unfold placeEaVex at h1
    repeat' split at h1
    all_goals first | cases h1; rfl | cases h1
  · rw [e] at h1
    dsimp only [Run.of] at h1
    unfold placeSpareEa at h1
    repeat' split at h1
    all_goals first | cases h1; rfl | cases h1

theorem ea_placed {x : IdInsn} {gs : List OpInfo} {ops : List Operand} {b b' : Build} {k : Nat} {g : OpInfo} {op : Operand}
    (hg : gs[k]? = some g) (ho : ops[k]? = some op) (ha : g.action.writesEa = true) (h : (placeAll x gs ops b).out = .ok b') :
    b'.ea.isSome = true := by
  refine placed (P := fun _ => True) (Q := fun b => b.ea.isSome = true) (fun _ _ => True) (fun _ _ => True) hg ho
    (fun _ _ _ _ _ _ => trivial) (fun _ _ _ _ _ _ => trivial) (fun _ _ _ _ _ _ _ => trivial) (fun b b' h _ => ea_written ha h) ?_ h trivial
  intro g op b b' _ hs hb
  cases hw : g.action.writesEa with
  | true => exact ea_written hw hs
  | false => rw [((step_same hs).ea hw).1]; exact hb

/-- An instruction with an operand for the effective address has one. -/
theorem has_ea {y : Syms} {x : IdInsn} {f : Form} {i : Insn} (settled : f.settled = true) (hc : f.ops.length ≤ (inOrder x f).length)
    (ok : (makeInsn y x f).out = .ok i) (h : (f.ops.any fun h => h.action.writesEa) = true) : i.ea.isSome = true := by
  obtain ⟨b, hp, fin, _⟩ := makeInsn_out settled ok
  rw [useOps_eq] at hp
  rw [List.any_eq_true] at h
  obtain ⟨g, hg, ha⟩ := h
  obtain ⟨k, hk, e⟩ := List.getElem_of_mem hg
  have hb := ea_placed (g := g) (by rw [← e]; exact List.getElem?_eq_getElem hk) (List.getElem?_eq_getElem (by omega)) ha hp
  obtain ⟨ea, he⟩ := Option.isSome_iff_exists.1 hb
  obtain ⟨v, _, e2, _⟩ := fin.ea ea he
  rw [e2]
  rfl

/-! ### C70 -/

theorem sound_at {ps : List Byte} {f : Form} : ∀ {gs : List OpInfo} {m : Nat} {g : OpInfo}, operandsSound ps f gs = true → gs[m]? = some g →
    operandSound ps f g (gs.drop (m + 1)) = true ∧ kindSound g = true := by
  intro gs
  induction gs with
  | nil => intro m g _ h; simp at h
  | cons q gs ih =>
    intro m g h hg
    unfold operandsSound at h
    simp only [Bool.and_eq_true] at h
    cases m with
    | zero =>
      simp only [List.getElem?_cons_zero, Option.some.injEq] at hg
      subst hg
      exact ⟨h.1.1, h.1.2⟩
    | succ m =>
      simp only [List.getElem?_cons_succ] at hg
      exact ih h.2 hg

theorem register_type {c : Ctx} {nequ : Nat} {d : Bool} {g : OpInfo} {op : Operand} {r : Nat} (h : HasType c nequ d g op) (hr : op.data = .reg r) :
    registerTypes.contains g.type = true := by
  unfold HasType at h
  cases ht : g.type <;> rw [ht] at h <;> dsimp only at h <;> first
    | rfl
    | (exfalso; obtain ⟨e, h, _⟩ := h; rw [hr] at h; cases h; done)
    | (exfalso; obtain ⟨e, h⟩ := h; rw [hr] at h; cases h; done)
    | (exfalso; obtain ⟨⟨e, h⟩, _⟩ := h; rw [hr] at h; cases h; done)
    | (exfalso; obtain ⟨n, e, h, _⟩ := h; rw [hr] at h; cases h; done)

theorem same_of_single {c : Ctx} {nequ : Nat} {d : Bool} {g : OpInfo} {op op' : Operand} {r r' mode : Nat} (hs : single g = true)
    (h : HasType c nequ d g op) (hr : op.data = .reg r) (he : Exists mode r) (h' : HasType c nequ d g op') (hr' : op'.data = .reg r') (he' : Exists mode r') :
    r' = r := by
  have key : ∀ {p : Nat → Prop} {o : Operand} {q : Nat}, o.data = .reg q → IsReg o p → p q := by
    rintro p o q h1 ⟨q', h2, h3⟩
    rw [h1] at h2
    cases h2
    exact h3
  have num : ∀ (n : Nat), n < 3 → g.size ∈ [OpSize.s8, .s16, .s32, .s64] → Numbered n g.size r → Numbered n g.size r' → r' = r := by
    intro n hn hsz h1 h2
    unfold Exists at he he'
    simp only [List.mem_cons, List.not_mem_nil, or_false] at hsz
    rcases hsz with e | e | e | e <;> rw [e] at h1 h2 <;> unfold Numbered at h1 h2 <;> omega
  unfold single at hs
  simp only [Bool.or_eq_true, Bool.and_eq_true, decide_eq_true_eq, List.mem_cons, List.not_mem_nil, or_false] at hs
  unfold HasType at h h'
  rcases hs with (e | e | e) | ⟨e | e | e, hz⟩ <;> rw [e] at h h' <;> dsimp only at h h'
  · exact (key hr' h').trans (key hr h).symm
  · exact (key hr' h').trans (key hr h).symm
  · exact (key hr' h').trans (key hr h).symm
  · exact num 0 (by omega) (by simpa using hz) (key hr h) (key hr' h')
  · exact num 1 (by omega) (by simpa using hz) (key hr h) (key hr' h')
  · exact num 2 (by omega) (by simpa using hz) (key hr h) (key hr' h')

theorem order_length (x : IdInsn) (f : Form) : (inOrder x f).length = x.ops.length := by
  unfold inOrder
  split <;> simp

/-- C70: every register operand of every instruction of the table is encoded, in every mode, dialect, syntax and processor setting,
    whatever the other operands are; `pslldq` and `psrldq` with three operands excepted (see `pslldq_operand_lost`), and the forms
    of `mov` that are decided upon at the end (see `mov_table`). -/
theorem registers_encoded_partial {n : RawInsn} (hn : n ∈ names) {a : Setting} {k : Keyword}
    (hk : k ∈ keywords a.parser.dialect n (groups.getD n.group [])) {x : IdInsn} (hx : StartedBy k a x) {c : Ctx} {nequ : Nat} {f : Form}
    (found : findMatch c nequ 0 x = .ok (some f)) (jump : isJump f = false) (settled : f.settled = true) (spoilt : ¬ Spoilt n f)
    (clean : LeavesRex x.prefixes) {y : Syms} {i : Insn} (ok : (makeInsn y x f).out = .ok i) {m : Nat} {g : OpInfo} {op : Operand} {r : Nat}
    (hg : f.ops[m]? = some g) (ho : (inOrder x f)[m]? = some op) (hr : op.data = .reg r) (he : Exists x.mode r) :
    Encoded c nequ y x f i m g r := by
  obtain ⟨before, behind, e, fits, _⟩ := first_fitting_form found
  have hm : f ∈ x.group := by rw [e]; simp
  have hs := chosen_sound hn hk hx hm fits spoilt
  unfold formSound at hs
  rw [jump, Bool.false_or, Bool.and_eq_true, Bool.and_eq_true] at hs
  obtain ⟨⟨once, hall⟩, _⟩ := hs
  obtain ⟨hop, _⟩ := sound_at hall hg
  have imms := imms_of_fits fits
  have hc : f.ops.length ≤ (inOrder x f).length := by rw [order_length, fits.count]
  have fo := register_operands once settled clean imms ok hg ho hr he
  have ht := (fits.operands m g op hg ho).type
  have hreg := register_type ht hr
  unfold operandSound at hop
  unfold Found at fo
  unfold Encoded
  have vexEq : vexOf x.modData f = vexByte x f := rfl
  have last : ((f.ops.drop (m + 1)).all fun h => !h.action.writesV) = true → LastVex f m := by
    intro h j q hj hq
    have : q ∈ f.ops.drop (m + 1) := by
      have : (f.ops.drop (m + 1))[j - (m + 1)]? = some q := by rw [List.getElem?_drop, show m + 1 + (j - (m + 1)) = j by omega]; exact hq
      exact List.mem_of_getElem? this
    simpa using List.all_eq_true.1 h q this
  cases ha : g.action <;> rw [ha] at hop fo <;> dsimp only at hop fo ⊢
  case none =>
    rw [hreg, Bool.not_true, Bool.false_or] at hop
    exact fun op' r' h' hr' he' => same_of_single hop ht hr he h' hr' he'
  case ea => exact fo
  case spare => exact ⟨has_ea settled hc ok hop, fo⟩
  case spareEA => exact fo
  case eaVEX => exact fo
  case spareVEX => exact ⟨has_ea settled hc ok hop, fo⟩
  case vex =>
    simp only [Bool.and_eq_true, decide_eq_true_eq] at hop
    exact ⟨hop.1, fo hop.1 (last hop.2)⟩
  case op0Add =>
    simp only [Bool.and_eq_true, decide_eq_true_eq] at hop
    exact fo hop.1 hop.2
  case op1Add =>
    simp only [Bool.and_eq_true, decide_eq_true_eq] at hop
    exact fo hop.1 hop.2
  case vexImmSrc =>
    intro ρ w base ag wrt here equs sound
    exact register_in_immediate once settled ok hg ho hr ha (by simpa using hop) ρ w base ag wrt here equs sound
  all_goals (rw [hreg] at hop; cases hop)

/-- C70: every memory operand of every instruction of the table is encoded, but for those that can only be AX, EAX or RAX. -/
theorem memory_encoded {n : RawInsn} (hn : n ∈ names) {a : Setting} {k : Keyword}
    (hk : k ∈ keywords a.parser.dialect n (groups.getD n.group [])) {x : IdInsn} (hx : StartedBy k a x) {c : Ctx} {nequ : Nat} {f : Form}
    (found : findMatch c nequ 0 x = .ok (some f)) (jump : isJump f = false) (settled : f.settled = true) (spoilt : ¬ Spoilt n f)
    {y : Syms} {i : Insn} (ok : (makeInsn y x f).out = .ok i) {m : Nat} {g : OpInfo} {op : Operand} {q : MemArg}
    (hg : f.ops[m]? = some g) (ho : (inOrder x f)[m]? = some op) (hq : op.data = .mem q) :
    MemEncoded y x f i g q ∨ Alone q 0x30 ∨ Alone q 0x40 ∨ Alone q 0x50 := by
  obtain ⟨before, behind, e, fits, _⟩ := first_fitting_form found
  have hs := chosen_sound hn hk hx (by rw [e]; simp) fits spoilt
  unfold formSound at hs
  simp only [jump, Bool.false_or, Bool.and_eq_true, Bool.or_eq_true, Bool.not_eq_true', decide_eq_true_eq] at hs
  obtain ⟨⟨once, hall⟩, hone⟩ := hs
  obtain ⟨_, hkind⟩ := sound_at hall hg
  have ht := (fits.operands m g op hg ho).type
  by_cases hmem : g.type ∈ memoryTypes
  · left
    have one : f.ops.countP (fun g => g.action.writesEa) ≤ 1 := by
      rcases hone with h | h
      · rw [List.any_eq_false] at h
        exact absurd (by simpa using hmem) (h g (List.mem_of_getElem? hg))
      · exact h
    have ha : g.action = .ea := by
      unfold memoryTypes at hmem
      unfold kindSound at hkind
      simp only [List.mem_cons, List.not_mem_nil, or_false] at hmem
      rcases hmem with e | e | e | e | e | e <;> rw [e] at hkind <;> simpa using hkind
    exact (memory_operand one settled ok hg ho hq ha).2
  · right
    unfold HasType at ht
    cases htt : g.type <;> rw [htt] at ht hmem <;> dsimp only at ht <;> first
      | exact absurd (by decide) hmem
      | (exfalso; obtain ⟨e, h, _⟩ := ht; rw [hq] at h; cases h; done)
      | (exfalso; obtain ⟨e, h⟩ := ht; rw [hq] at h; cases h; done)
      | (exfalso; obtain ⟨⟨e, h⟩, _⟩ := ht; rw [hq] at h; cases h; done)
      | (exfalso; obtain ⟨n, e, h, _⟩ := ht; rw [hq] at h; cases h; done)
      | skip
    · obtain ⟨q', h1, h2⟩ := ht
      rw [hq] at h1
      cases h1
      exact h2
    · obtain ⟨q', h1, h2⟩ := ht
      rw [hq] at h1
      cases h1
      exact .inr (.inl h2)

/-- C70: every immediate operand of every instruction of the table is encoded (or is the number 1 the form is for), but for the
    two that EXTRQ and INSERTQ have behind ModRM. -/
theorem immediate_encoded_partial {n : RawInsn} (hn : n ∈ names) {a : Setting} {k : Keyword}
    (hk : k ∈ keywords a.parser.dialect n (groups.getD n.group [])) {x : IdInsn} (hx : StartedBy k a x) {c : Ctx} {nequ : Nat} {f : Form}
    (found : findMatch c nequ 0 x = .ok (some f)) (jump : isJump f = false) (settled : f.settled = true) (spoilt : ¬ Spoilt n f)
    {y : Syms} {i : Insn} (ok : (makeInsn y x f).out = .ok i) {m : Nat} {g : OpInfo} {op : Operand} {e : Node}
    (hg : f.ops[m]? = some g) (ho : (inOrder x f)[m]? = some op) (hq : op.data = .imm e) :
    ImmEncoded y x f i g e ∨ (getIntnum c nequ false e).out = .ok (some (.L 1)) ∨ g.type = .imm ∧ g.action = .ea := by
  obtain ⟨before, behind, e', fits, _⟩ := first_fitting_form found
  have hs := chosen_sound hn hk hx (by rw [e']; simp) fits spoilt
  unfold formSound at hs
  simp only [jump, Bool.false_or, Bool.and_eq_true, Bool.or_eq_true, Bool.not_eq_true', decide_eq_true_eq] at hs
  obtain ⟨⟨once, hall⟩, _⟩ := hs
  obtain ⟨_, hkind⟩ := sound_at hall hg
  have ht := (fits.operands m g op hg ho).type
  have done : g.action = .imm ∨ g.action = .simm → ImmEncoded y x f i g e := fun ha => (immediate_operand once settled ok hg ho hq ha).2
  unfold kindSound at hkind
  unfold HasType at ht
  cases htt : g.type <;> rw [htt] at ht hkind <;> dsimp only at ht hkind <;> first
    | (exfalso; obtain ⟨e, h, _⟩ := ht; rw [hq] at h; cases h; done)
    | (exfalso; obtain ⟨n, e, h, _⟩ := ht; rw [hq] at h; cases h; done)
    | (exfalso; rcases ht with ⟨e, h, _⟩ | ⟨e, h, _⟩ <;> rw [hq] at h <;> cases h; done)
    | skip
  case imm =>
    rcases of_decide_eq_true hkind with h | h
    · exact .inl (done h)
    · exact .inr (.inr ⟨rfl, h⟩)
  case imm1 =>
    obtain ⟨e1, h1, h2⟩ := ht
    rw [hq] at h1
    cases h1
    exact .inr (.inl h2)
  case immNotSegOff => exact .inl (done (of_decide_eq_true hkind))

/-- C70: every segment register of every instruction of the table is encoded, or there is one form for each. -/
theorem segments_encoded {n : RawInsn} (hn : n ∈ names) {a : Setting} {k : Keyword}
    (hk : k ∈ keywords a.parser.dialect n (groups.getD n.group [])) {x : IdInsn} (hx : StartedBy k a x) {c : Ctx} {nequ : Nat} {f : Form}
    (found : findMatch c nequ 0 x = .ok (some f)) (jump : isJump f = false) (settled : f.settled = true) (spoilt : ¬ Spoilt n f)
    {y : Syms} {i : Insn} (ok : (makeInsn y x f).out = .ok i) {m : Nat} {g : OpInfo} {op : Operand} {r : Nat}
    (hg : f.ops[m]? = some g) (ho : (inOrder x f)[m]? = some op) (hr : op.data = .segreg r) :
    (∃ ea, i.ea = some ea ∧ regField ea.modrm = r % 8) ∨
      ∀ op' r', HasType c nequ x.defaultRel g op' → op'.data = .segreg r' → r' % 16 = r % 16 := by
  obtain ⟨before, behind, e', fits, _⟩ := first_fitting_form found
  have hs := chosen_sound hn hk hx (by rw [e']; simp) fits spoilt
  unfold formSound at hs
  simp only [jump, Bool.false_or, Bool.and_eq_true, Bool.or_eq_true, Bool.not_eq_true', decide_eq_true_eq] at hs
  obtain ⟨⟨once, hall⟩, _⟩ := hs
  obtain ⟨hop, hkind⟩ := sound_at hall hg
  have ht := (fits.operands m g op hg ho).type
  have hc : f.ops.length ≤ (inOrder x f).length := by rw [order_length, fits.count]
  have fixed : ∀ s, (∀ op' : Operand, HasType c nequ x.defaultRel g op' → IsSeg op' s) →
      ∀ op' r', HasType c nequ x.defaultRel g op' → op'.data = .segreg r' → r' % 16 = r % 16 := by
    intro s hall op' r' h' hr'
    obtain ⟨r1, h1, h2⟩ := hall op ht
    obtain ⟨r2, h3, h4⟩ := hall op' h'
    rw [hr] at h1
    rw [hr'] at h3
    cases h1
    cases h3
    omega
  by_cases hseg : g.type = .segReg
  · left
    have ha : g.action = .spare := by
      unfold kindSound at hkind
      rw [hseg] at hkind
      exact of_decide_eq_true hkind
    have hea : i.ea.isSome = true := by
      unfold operandSound at hop
      rw [ha] at hop
      exact has_ea settled hc ok hop
    obtain ⟨ea, he⟩ := Option.isSome_iff_exists.1 hea
    exact ⟨ea, he, segment_operand once settled ok hg ho hr ha ea he⟩
  · right
    unfold HasType at ht fixed
    cases htt : g.type <;> rw [htt] at ht fixed hseg <;> dsimp only at ht fixed <;> first
      | (exfalso; exact hseg rfl)
      | (exfalso; obtain ⟨e, h, _⟩ := ht; rw [hr] at h; cases h; done)
      | (exfalso; rcases ht with ⟨e, h, _⟩ | ⟨e, h, _⟩ <;> rw [hr] at h <;> cases h; done)
      | (exfalso; obtain ⟨e, h⟩ := ht; rw [hr] at h; cases h; done)
      | (exfalso; obtain ⟨⟨e, h⟩, _⟩ := ht; rw [hr] at h; cases h; done)
      | (unfold HasType; rw [htt]; exact fixed _ (fun _ h => h))

/-! ### C70: MOV -/

/-- The forms that are decided upon at the end: MOV of the accumulator, and of an immediate to a 64-bit register. -/
def lateSound (n : RawInsn) (f : Form) : Bool :=
  f.settled || isJump f ||
    decide (vexOf (paramsOfName n) f = 0#8) &&
      (decide (lateOf f.ops .none = .shortMov) && (f.ops.all fun g => decide (g.action = .ea ∨ g.action = .spare)) ||
       decide (lateOf f.ops .none = .simm32Avail) && decide (firstOf (paramsOfName n) f = 0xB8#8) &&
         (f.ops.all fun g => decide (g.action = .op0Add) || decide (g.type = .imm)))

def nameLateSound (n : RawInsn) : Bool := (groups.getD n.group []).all fun r => (r.form.toList).all (lateSound n)

set_option maxRecDepth 100000 in
theorem names0_late : names0.all nameLateSound = true := by decide +kernel
set_option maxRecDepth 100000 in
theorem names1_late : names1.all nameLateSound = true := by decide +kernel
set_option maxRecDepth 100000 in
theorem names2_late : names2.all nameLateSound = true := by decide +kernel
set_option maxRecDepth 100000 in
theorem names3_late : names3.all nameLateSound = true := by decide +kernel

theorem late_sound {n : RawInsn} (hn : n ∈ names) {f : Form} (hf : f ∈ (groups.getD n.group []).filterMap RawForm.form) : lateSound n f = true := by
  obtain ⟨r, hr, e⟩ := List.mem_filterMap.1 hf
  have h : nameLateSound n = true := by
    unfold names at hn
    simp only [List.mem_append] at hn
    rcases hn with ((h | h) | h) | h
    · exact List.all_eq_true.1 names0_late n h
    · exact List.all_eq_true.1 names1_late n h
    · exact List.all_eq_true.1 names2_late n h
    · exact List.all_eq_true.1 names3_late n h
  have h := List.all_eq_true.1 h r hr
  rw [e] at h
  exact List.all_eq_true.1 h f (by simp)

/-- C70: the registers of the forms that are decided upon at the end are encoded too, unless the form without ModRM is taken for
    one between the accumulator and memory; those of an immediate to a 64-bit register in the opcode, or in ModRM. -/
theorem mov_table {n : RawInsn} (hn : n ∈ names) {a : Setting} {k : Keyword}
    (hk : k ∈ keywords a.parser.dialect n (groups.getD n.group [])) {x : IdInsn} (hx : StartedBy k a x) {c : Ctx} {nequ : Nat} {f : Form}
    (found : findMatch c nequ 0 x = .ok (some f)) (jump : isJump f = false) (late : f.settled = false) (spoilt : ¬ Spoilt n f)
    (clean : LeavesRex x.prefixes) {y : Syms} {i : Insn} (ok : (makeInsn y x f).out = .ok i) {m : Nat} {g : OpInfo} {op : Operand} {r : Nat}
    (hg : f.ops[m]? = some g) (ho : (inOrder x f)[m]? = some op) (hr : op.data = .reg r) (he : Exists x.mode r) :
    (i.ea.any (·.needModrm) = true ∧ (g.action = .ea ∧ InRm i r ∨ g.action = .spare ∧ InReg i r)) ∨
    (lateOf f.ops .none = .shortMov ∧ i.ea.any (·.needModrm) = false) ∨
    (g.action = .op0Add ∧ (InOpcode i.opcode.b0 i.rex r ∧ i.opcode.b0.toNat / 8 = 0xB8 / 8 ∨ InRm i r)) := by
  obtain ⟨before, behind, e', fits, _⟩ := first_fitting_form found
  have hm : f ∈ x.group := by rw [e']; simp
  have hs := chosen_sound hn hk hx hm fits spoilt
  unfold formSound at hs
  simp only [jump, Bool.false_or, Bool.and_eq_true] at hs
  obtain ⟨⟨once, hall⟩, _⟩ := hs
  obtain ⟨e1, e2, _⟩ := keyword_of hk
  have g1 : x.group = (groups.getD n.group []).filterMap RawForm.form := by rw [hx]; show k.group.filterMap _ = _; rw [e1]
  have g2 : x.modData = paramsOfName n := by rw [hx]; exact e2
  rw [g1] at hm
  have hl := late_sound hn hm
  unfold lateSound at hl
  simp only [late, jump, Bool.false_or, Bool.and_eq_true, Bool.or_eq_true, decide_eq_true_eq, List.all_eq_true] at hl
  obtain ⟨hv, hl⟩ := hl
  have hv : vexByte x f = 0#8 := by rw [← hv, ← g2]; rfl
  have hc : f.ops.length ≤ (inOrder x f).length := by rw [order_length, fits.count]
  have imms := imms_of_fits fits
  have hmem := List.mem_of_getElem? hg
  rcases hl with ⟨h1, h2⟩ | ⟨⟨h1, h2⟩, h3⟩
  · cases hp : i.ea.any (·.needModrm) with
    | false => exact .inr (.inl ⟨h1, rfl⟩)
    | true =>
      obtain ⟨q1, q2⟩ := mov_registers h1 hv hc once clean imms ok hp hg ho hr he
      refine .inl ⟨rfl, ?_⟩
      rcases h2 g hmem with h | h
      · exact .inl ⟨h, q1 h⟩
      · exact .inr ⟨h, q2 h⟩
  · have ha : g.action = .op0Add := by
      rcases h3 g hmem with h | h
      · exact h
      · obtain ⟨e, h4⟩ := imms m g op hg ho h
        rw [hr] at h4
        cases h4
    obtain ⟨_, _, _, _, _, _, hres⟩ := mov_immediate h1 hv (by rw [← h2, ← g2]; rfl) hc once clean imms ok hg ho hr he ha
    refine .inr (.inr ⟨ha, ?_⟩)
    rcases hres with ⟨_, q1, q2, _⟩ | ⟨_, q1, _⟩
    · exact .inl ⟨q1, q2⟩
    · exact .inr q1

/-! ### Cases -/

/-- Every feature enabled, with the syntax of NASM. -/
def plainly (mode : Nat) : Setting := { mode := mode, cpu := fun _ => true, parser := .nasm, forceStrict := false, defaultRel := false }

/-- The instruction a name of NASM starts, with operands. -/
def written (n : RawInsn) (mode : Nat) (ops : List Operand) : Option IdInsn :=
  match keywords .nasm n (groups.getD n.group []) with
  | [] => none
  | k :: _ => some { k.insn (plainly mode) with ops := ops }

theorem written_started {n : RawInsn} {mode : Nat} {ops : List Operand} {x : IdInsn} (h : written n mode ops = some x) :
    ∃ k ∈ keywords (plainly mode).parser.dialect n (groups.getD n.group []), StartedBy k (plainly mode) x := by
  unfold written at h
  show ∃ k ∈ keywords .nasm n (groups.getD n.group []), _
  split at h
  · cases h
  · next k ks hk =>
    injection h with h
    exact ⟨k, by rw [hk]; simp, by subst h; rfl⟩

/-- What it becomes, if it meets the hypotheses of `registers_encoded_partial`. -/
def seenAs (n : RawInsn) (mode : Nat) (ops : List Operand) : Option Seen :=
  match written n mode ops with
  | none => none
  | some x =>
    match findMatch noSyms 1 0 x with
    | .ok (some f) =>
      if !isJump f && (decide (n.group ≠ 121) || decide (f.ops.length ≠ 3)) then seen x else none
    | _ => none

set_option maxRecDepth 100000 in
/-- `add r9, rbx`, `vblendvps xmm1, xmm2, xmm3, xmm4` (the last in the immediate) and `vpinsrb xmm1, xmm2, eax, 5`. -/
example :
    (∃ n, names[55]? = some n ∧ seenAs n 64 [regOp 0x59, regOp 0x53] = some ⟨0x49, 0, [0x01], some 0xD9, none⟩) ∧
    (∃ n, names[1049]? = some n ∧ (seenAs n 64 [regOp 0x81, regOp 0x82, regOp 0x83, regOp 0x84]).isSome = true) ∧
    (∃ n, names[1073]? = some n ∧ (seenAs n 64 [regOp 0x81, regOp 0x82, regOp 0x40, numOp 0 5]).isSome = true) :=
  ⟨⟨_, rfl, by with_unfolding_all decide +kernel⟩, ⟨_, rfl, by with_unfolding_all decide +kernel⟩,
    ⟨_, rfl, by with_unfolding_all decide +kernel⟩⟩

set_option maxRecDepth 100000 in
/-- C70 fails for `pslldq xmm1, xmm2, 5` and `pslldq xmm3, xmm2, 5`: both are accepted, and both are made into
    `pslldq xmm2, 5` (66 0F 73 FA 05), with the register that was to be written left out.  (`vpslldq` is right.) -/
theorem pslldq_operand_lost :
    names[944]? = some { name := "pslldq", group := 121, modifiers := [7] } ∧
    (written { name := "pslldq", group := 121, modifiers := [7] } 64 [regOp 0x81, regOp 0x82, numOp 0 5]).bind seen =
      some ⟨0, 0x66, [0x0F, 0x73], some 0xFA, some 8⟩ ∧
    (written { name := "pslldq", group := 121, modifiers := [7] } 64 [regOp 0x83, regOp 0x82, numOp 0 5]).bind seen =
      some ⟨0, 0x66, [0x0F, 0x73], some 0xFA, some 8⟩ ∧
    (written { name := "pslldq", group := 121, modifiers := [7] } 64 [regOp 0x82, numOp 0 5]).bind seen =
      some ⟨0, 0x66, [0x0F, 0x73], some 0xFA, some 8⟩ := by
  refine ⟨rfl, ?_, ?_, ?_⟩ <;> with_unfolding_all decide +kernel

end Verif.Match
