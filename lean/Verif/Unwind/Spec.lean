/-
C82: unwind information as the system reads it ("x64 exception handling", UNWIND_INFO and
UNWIND_CODE).
-/
namespace Verif.Unwind

/-- What the instruction at some place in the prologue did. -/
inductive Uw where
  | push (reg : Nat)
  | setFrame
  | alloc (size : Nat)
  | save (reg off : Nat)
  | saveXmm (reg off : Nat)
  | machineFrame (errorCode : Bool)
  deriving DecidableEq, Repr

/-- A number of two bytes. -/
def u16 (a b : Nat) : Nat := a + 256 * b
/-- A number of four bytes. -/
def u32 (a b c d : Nat) : Nat := a + 256 * b + 65536 * c + 16777216 * d

/-- `n` slots of two bytes: the operations, each with its place in the prologue. -/
def readSlots : Nat → Nat → List Nat → Option (List (Nat × Uw) × List Nat)
  | _, 0, bs => some ([], bs)
  | 0, _ + 1, _ => none
  | f + 1, n + 1, bs =>
    match bs with
    | o :: b :: r =>
      let one (u : Uw) := (readSlots f n r).map (fun x => ((o, u) :: x.1, x.2))
      let two (u : Nat → Uw) := match n, r with
        | m + 1, a :: b :: r => (readSlots f m r).map (fun x => ((o, u (u16 a b)) :: x.1, x.2))
        | _, _ => none
      let three (u : Nat → Uw) := match n, r with
        | m + 2, a :: b :: c :: d :: r => (readSlots f m r).map (fun x => ((o, u (u32 a b c d)) :: x.1, x.2))
        | _, _ => none
      match b % 16 with
      | 0 => one (.push (b / 16))
      | 1 => if b / 16 = 0 then two (fun v => .alloc (v * 8)) else if b / 16 = 1 then three .alloc else none
      | 2 => one (.alloc (b / 16 * 8 + 8))
      | 3 => one .setFrame
      | 4 => two (fun v => .save (b / 16) (v * 8))
      | 5 => three (.save (b / 16))
      | 8 => two (fun v => .saveXmm (b / 16) (v * 16))
      | 9 => three (.saveXmm (b / 16))
      | 10 => if b / 16 = 0 then one (.machineFrame false) else if b / 16 = 1 then one (.machineFrame true) else none
      | _ => none
    | _ => none

/-- What the system knows about a procedure. -/
structure Read where
  handler : Bool
  prolog : Nat
  frameReg : Nat
  frameOff : Nat
  ops : List (Nat × Uw)
  deriving DecidableEq, Repr

/-- `UNWIND_INFO`: version 1, flags, the size of the prologue, the number of slots, the frame
    register and its offset in units of 16 bytes, the slots, a slot to make their number even, and
    the address of the handler if there is one; and what is behind it. -/
def readInfo (bs : List Nat) : Option (Read × List Nat) :=
  match bs with
  | v :: p :: n :: f :: r =>
    if v % 8 = 1 then
      (readSlots n n r).bind fun x =>
        let r := x.2.drop (n % 2 * 2)
        if v / 8 = 0 then some (⟨false, p, f % 16, f / 16 * 16, x.1⟩, r)
        else if v / 8 = 1 then some (⟨true, p, f % 16, f / 16 * 16, x.1⟩, r.drop 4)
        else none
    else none
  | _ => none

-- `push rbp` at 1, `sub rsp, 40h` at 5, a frame of 20h in register 5 at 9, a handler
example : readInfo [9, 9, 3, 37, 9, 83, 5, 114, 1, 80, 0, 0, 0, 0, 0, 0, 7] =
    some (⟨true, 9, 5, 32, [(9, .setFrame), (5, .alloc 64), (1, .push 5)]⟩, [7]) := by decide

end Verif.Unwind
