import Verif.Unwind.Model
import Verif.Unwind.Spec
/-
C82: what the directives of a prologue say.
-/
namespace Verif.Unwind

/-- The directives for what the prologue does. -/
def Dir.isOp : Dir → Bool
  | .pushReg _ | .setFrame _ _ | .allocStack _ | .saveReg _ _ | .saveXmm _ _ | .pushFrame _ => true
  | _ => false

/-- What such a directive says. -/
def Dir.says : Dir → Uw
  | .pushReg r => .push r
  | .setFrame _ _ => .setFrame
  | .allocStack n => .alloc n.toNat
  | .saveReg r off => .save r off.toNat
  | .saveXmm r off => .saveXmm r off.toNat
  | .pushFrame a => .machineFrame a
  | _ => .push 0

/-- The numbers of registers are below 16 and sizes and offsets below 2^32. -/
def Dir.fits : Dir → Prop
  | .pushReg r => r < 16
  | .setFrame r _ => r < 16
  | .allocStack n => n < 4294967296
  | .saveReg r off => r < 16 ∧ off < 4294967296
  | .saveXmm r off => r < 16 ∧ off < 4294967296
  | _ => True

/-- What the system can be told. -/
def Dir.valid : Dir → Prop
  | .pushReg r => r < 16
  | .setFrame r off => r < 16 ∧ 0 ≤ off ∧ off ≤ 240 ∧ off % 16 = 0
  | .allocStack n => 8 ≤ n ∧ n < 4294967296 ∧ n % 8 = 0
  | .saveReg r off => r < 16 ∧ 0 ≤ off ∧ off < 4294967296 ∧ off % 8 = 0
  | .saveXmm r off => r < 16 ∧ 0 ≤ off ∧ off < 4294967296 ∧ off % 16 = 0
  | _ => True

/-- The directive for the frame. -/
def Dir.isFrame : Dir → Bool
  | .setFrame _ _ => true
  | _ => false

/-- The frame register and its offset: those of the last directive for it. -/
def frame : List (Int × Dir) → Nat × Int
  | [] => (0, 0)
  | d :: l =>
    if l.any (fun d => d.2.isFrame) then frame l
    else match d.2 with
      | .setFrame r off => (r, off)
      | _ => (0, 0)

end Verif.Unwind
