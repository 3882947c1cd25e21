/-
Unwind information of win64 object files.
modules/objfmts/coff/win64-except.c, modules/objfmts/coff/coff-objfmt.c

Offsets and sizes are constants in the range of a `long`; positions are known numbers.  The entry of
a procedure in `.pdata` is modelled only as the position in `.xdata` it refers to.
-/
namespace Verif.Unwind

/-- What is reported. -/
inductive Err where
  | nested | noProc | afterProlog | noProlog
  | negative | multiple | range | prologSize | count | frameRange | frameMultiple
  deriving DecidableEq, Repr

/-- The directives of a procedure (coff-objfmt.c:1948-2306).  A register is the number the
    architecture gives it, with its kind in the upper bits. -/
inductive Dir where
  | procFrame (handler : Bool)
  | pushReg (reg : Nat)
  | setFrame (reg : Nat) (off : Int)
  | allocStack (size : Int)
  | saveReg (reg : Nat) (off : Int)
  | saveXmm (reg : Nat) (off : Int)
  | pushFrame (arg : Bool)
  | endProlog
  | endProc
  deriving DecidableEq, Repr

/-- `coff_unwind_code` (coff-objfmt.h:30-49); `pos` is the position of `loc`. -/
structure Code where
  pos : Int
  op : Nat
  info : Nat
  off : Int
  deriving DecidableEq, Repr

/-- `coff_unwind_info` (coff-objfmt.h:51-69); `prolog` is the position of the end of the prologue. -/
structure Info where
  handler : Bool
  framereg : Nat
  frameoff : Int
  codes : List Code
  prolog : Int
  deriving DecidableEq, Repr

/-- `yasm_win64__uwinfo_create` (win64-except.c:93-107). -/
def Info.fresh (handler : Bool) : Info := ⟨handler, 0, 0, [], 0⟩

/-- `proc_frame`, `done_prolog` and `unwind` of the object format (coff-objfmt.c:176-182), the
    information generated so far, and the errors. -/
structure St where
  proc : Option Info
  prologDone : Bool
  out : List Info
  errs : List Err
  deriving DecidableEq, Repr

/-- No procedure yet (coff-objfmt.c:289-291). -/
def St.init : St := ⟨none, false, [], []⟩

/-- `procframe_checkstate` (coff-objfmt.c:1977-1997) and then the rest of a directive. -/
def St.checked (s : St) (f : Info → St) : St :=
  match s.proc with
  | none => { s with errs := s.errs ++ [.noProc] }
  | some i => if s.prologDone then { s with errs := s.errs ++ [.afterProlog] } else f i

/-- `SLIST_INSERT_HEAD` of a code. -/
def St.addCode (s : St) (i : Info) (c : Code) : St := { s with proc := some { i with codes := c :: i.codes } }

/-- A directive at the position `pos` (coff-objfmt.c:1948-2306). -/
def St.dir (s : St) (pos : Int) : Dir → St
  | .procFrame h =>
    match s.proc with
    | some _ => { s with errs := s.errs ++ [.nested] }
    | none => { s with proc := some (Info.fresh h), prologDone := false }
  | .pushReg r => s.checked fun i => s.addCode i ⟨pos, 0, r % 16, 0⟩
  | .setFrame r off => s.checked fun i => s.addCode { i with framereg := r, frameoff := off } ⟨pos, 3, r % 16, off⟩
  | .allocStack n => s.checked fun i => s.addCode i ⟨pos, 2, 0, n⟩
  | .saveReg r off => s.checked fun i => s.addCode i ⟨pos, 4, r % 16, off⟩
  | .saveXmm r off => s.checked fun i => s.addCode i ⟨pos, 8, r % 16, off⟩
  | .pushFrame a => s.checked fun i => s.addCode i ⟨pos, 10, if a then 1 else 0, 0⟩
  | .endProlog => s.checked fun i => { s with proc := some { i with prolog := pos }, prologDone := true }
  | .endProc =>
    match s.proc with
    | none => { s with errs := s.errs ++ [.noProc] }
    | some i =>
      if s.prologDone then { s with proc := none, prologDone := false, out := s.out ++ [i] }
      else { s with proc := none, errs := s.errs ++ [.noProlog] }

/-- Directives in order, each with its position. -/
def St.dirs (s : St) (l : List (Int × Dir)) : St := l.foldl (fun s d => s.dir d.1 d.2) s

/-- `win64_uwcode_bc_expand` (win64-except.c:423-460): the code, its length, and whether it was
    refused. -/
def expand (c : Code) (len span : Nat) (v : Int) : Code × Nat × Bool :=
  if v < 0 then (c, len, true)
  else if span = 1 then
    let (c, len) := if c.op = 2 ∧ v > 128 then ({ c with op := 1 }, len + 2) else (c, len)
    if v ≤ 524280 then (c, len, false) else ({ c with info := 1 }, len + 2, false)
  else if c.op = 4 ∧ span = 2 then ({ c with op := 5 }, len + 2, false)
  else if c.op = 8 ∧ span = 3 then ({ c with op := 9 }, len + 2, false)
  else (c, len, false)

/-- The rest of `win64_uwcode_bc_calc_len` for a known offset (win64-except.c:402-418). -/
def sized (c : Code) (len span : Nat) (low high mask : Int) : Code × Nat × List Err :=
  let x := if c.off > high then expand c len span c.off else (c, len, false)
  (x.1, x.2.1, (if x.2.2 then [.negative] else []) ++ (if c.off < low then [.negative] else []) ++
    (if c.off % (mask + 1) ≠ 0 then [.multiple] else []))

/-- `win64_uwcode_bc_calc_len` (win64-except.c:351-421): the code, its length and errors. -/
def calcLen (c : Code) : Code × Nat × List Err :=
  if c.op = 1 ∨ c.op = 2 then sized { c with op := 2, info := 0 } 2 1 8 128 7
  else if c.op = 4 ∨ c.op = 5 then sized { c with op := 4 } 4 2 0 524280 7
  else if c.op = 8 ∨ c.op = 9 then sized { c with op := 8 } 4 3 0 1048560 15
  else (c, 2, [])

/-- The bytes of a number, least significant first. -/
def le : Nat → Nat → List Nat
  | 0, _ => []
  | n + 1, v => v % 256 :: le n (v / 256)

/-- `win64_uwcode_bc_tobytes` (win64-except.c:462-559); `start` is the position of the procedure. -/
def codeBytes (start : Int) (c : Code) : List Nat × List Err :=
  let at0 := ((c.pos - start) % 256).toNat
  let word (info : Nat) : Nat := (info * 16 + c.op % 16) % 256
  let big (size : Nat) (low high : Int) (shift : Nat) (mask : Int) : List Nat × List Err :=
    if size ≠ 4 ∧ (c.off < low ∨ c.off > high) then ([at0], [.range])
    else if c.off % (mask + 1) ≠ 0 then ([at0], [.multiple])
    else
      let info := if size = 0 then (c.off / 2 ^ shift).toNat - 1 else c.info
      (at0 :: word info :: le size ((c.off / 2 ^ shift) % 2 ^ (8 * size)).toNat, [])
  if c.op = 2 then big 0 8 128 3 7
  else if c.op = 1 then if c.info = 0 then big 2 136 524280 3 7 else big 4 0 0 0 7
  else if c.op = 4 then big 2 0 524280 3 7
  else if c.op = 8 then big 2 0 1048560 4 15
  else if c.op = 5 then big 4 0 0 0 7
  else if c.op = 9 then big 4 0 0 0 15
  else ([at0, word c.info], [])

/-- The errors of the offset of the frame (win64-except.c:237-246, 316-323). -/
def frameErrs (off : Int) : List Err :=
  if off < 0 ∨ off > 240 then [.frameRange] else if off % 16 ≠ 0 then [.frameMultiple] else []

/-- The codes with their lengths. -/
def Info.sizes (i : Info) : List (Code × Nat × List Err) := i.codes.map calcLen

/-- The number of slots: the distance between the end of the header and that of the last code, in
    words (win64-except.c:160-177). -/
def Info.count (i : Info) : Nat := (i.sizes.map (fun x => x.2.1)).sum / 2

/-- `win64_uwinfo_bc_tobytes` (win64-except.c:280-329): the header. -/
def Info.header (i : Info) (start : Int) : List Nat :=
  [if i.handler then 9 else 1, ((i.prolog - start) % 256).toNat, i.count % 256,
    ((i.frameoff % 256).toNat / 16 * 16) + i.framereg % 16]

/-- `yasm_win64__unwind_generate` (win64-except.c:127-191) without the alignment before the header:
    the header, the codes, zeros up to a multiple of four and the place of the reference to the
    handler. -/
def Info.bytes (i : Info) (start : Int) : List Nat :=
  let body := i.header start ++ (i.sizes.map (fun x => (codeBytes start x.1).1)).flatten
  body ++ List.replicate ((4 - body.length % 4) % 4) 0 ++ (if i.handler then [0, 0, 0, 0] else [])

/-- The errors of all of that; the lengths of the prologue and of the codes are checked as spans
    (win64-except.c:232-233, 252-277). -/
def Info.errs (i : Info) (start : Int) : List Err :=
  (i.sizes.map (fun x => x.2.2)).flatten ++ frameErrs i.frameoff ++
    (if i.prolog - start < 0 ∨ i.prolog - start > 255 then [.prologSize] else []) ++
    (if i.count > 255 then [.count] else []) ++
    (i.sizes.map (fun x => (codeBytes start x.1).2)).flatten

/-- The `.xdata` section and the positions that the entries in `.pdata` refer to: the position is
    taken before the alignment is appended (coff-objfmt.c:2254-2262). -/
structure XData where
  data : List Nat
  refs : List Nat
  deriving DecidableEq, Repr

/-- The information of a procedure is appended. -/
def XData.add (x : XData) (i : Info) (start : Int) : XData :=
  ⟨x.data ++ List.replicate ((4 - x.data.length % 4) % 4) 0 ++ i.bytes start, x.refs ++ [x.data.length]⟩

end Verif.Unwind
