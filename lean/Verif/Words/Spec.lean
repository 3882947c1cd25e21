import Verif.Words.Model
/-
What the words of a bit vector stand for.
-/
namespace Verif.Words

/-- The number whose digits to the base 2^32 are the words, lowest first. -/
def val : List W → Nat
  | [] => 0
  | w :: ws => w.toNat + 2 ^ 32 * val ws

/-- The words are those of the n-bit number `x`: as many as `BitVector_Create` makes, with value `x`; in particular
    the bits of the last word that are not in use are 0. -/
def Rep (n : Nat) (ws : List W) (x : BitVec n) : Prop := ws.length = size n ∧ val ws = x.toNat

/-- A bit vector of `n` bits: as many words of 32 bits as are needed, and no bit set beyond the `n`th. -/
def Vec (n : Nat) (ws : List W) : Prop := ws.length = (n + 31) / 32 ∧ val ws < 2 ^ n

instance (n : Nat) (ws : List W) : Decidable (Vec n ws) := inferInstanceAs (Decidable (_ ∧ _))

/-- Read as a signed number (two's complement). -/
def signed (n : Nat) (ws : List W) : Int := if 2 ^ n ≤ 2 * val ws then (val ws : Int) - 2 ^ n else val ws

/-- Can `z` be stored as a signed number of `n` bits? -/
def Fits (n : Nat) (z : Int) : Prop := -(2 ^ n) ≤ 2 * z ∧ 2 * z < 2 ^ n

instance (n : Nat) (z : Int) : Decidable (Fits n z) := inferInstanceAs (Decidable (_ ∧ _))

end Verif.Words
