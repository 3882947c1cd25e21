/-
What a C string with escapes denotes, as a grammar; independent of the in-place decoder.
-/
import Verif.File.Unescape

namespace Verif.File.Spec

/-- ASCII text as bytes. -/
def bytes (s : String) : List Nat := s.toList.map Char.toNat

def isHex (c : Nat) : Prop := c ∈ bytes "0123456789abcdefABCDEF"
def isDec (c : Nat) : Prop := c ∈ bytes "0123456789"

instance (c : Nat) : Decidable (isHex c) := inferInstanceAs (Decidable (_ ∈ _))
instance (c : Nat) : Decidable (isDec c) := inferInstanceAs (Decidable (_ ∈ _))

/-- Value of a digit: its place in "0123456789abcdef", upper case like lower case. -/
def digit (c : Nat) : Nat :=
  if c ∈ bytes "ABCDEF" then 10 + (bytes "ABCDEF").idxOf c
  else (bytes "0123456789abcdef").idxOf c

/-- Positional value of a digit string. -/
def value (base : Nat) (ds : List Nat) : Nat := ds.foldl (fun v c => v * base + digit c) 0

/-- The one-letter escapes. -/
def letter (c : Nat) : Option Nat :=
  if c = 'b'.toNat then some 8 else if c = 'f'.toNat then some 12 else if c = 'n'.toNat then some 10
  else if c = 'r'.toNat then some 13 else if c = 't'.toNat then some 9 else none

/-- `Escape e b w`: the escape `\e` denotes byte `b`; `w` tells whether it has an octal digit 8 or 9.
    `next` is the byte after it, if any: digit strings extend as far as they can. -/
inductive Escape : List Nat → Option Nat → Nat → Bool → Prop
  | letter {c b next} (h : letter c = some b) : Escape [c] next b false
  /-- `\x` and all the hexadecimal digits that follow: their value modulo 256. -/
  | hex {ds next} (hd : ∀ d ∈ ds, isHex d) (hn : ∀ c, next = some c → ¬ isHex c) :
      Escape ('x'.toNat :: ds) next (value 16 ds % 256) false
  /-- One to three decimal digits, read in base eight modulo 256. -/
  | octal {ds next} (hd : ∀ d ∈ ds, isDec d) (h0 : ds ≠ []) (h3 : ds.length ≤ 3)
      (hn : ds.length < 3 → ∀ c, next = some c → ¬ isDec c) :
      Escape ds next (value 8 ds % 256) (ds.any (fun d => decide ('7'.toNat < d)))
  /-- Anything else denotes itself. -/
  | self {c next} (h1 : Spec.letter c = none) (h2 : c ≠ 'x'.toNat) (h3 : ¬ isDec c) :
      Escape [c] next c false

/-- `Decodes s t w`: the string body `s` denotes the bytes `t`, with `w` out-of-range octal escapes. -/
inductive Decodes : List Nat → List Nat → Nat → Prop
  | nil : Decodes [] [] 0
  /-- A backslash that ends the string denotes itself. -/
  | last : Decodes ['\\'.toNat] ['\\'.toNat] 0
  | plain {c s t w} (h : c ≠ '\\'.toNat) (hr : Decodes s t w) : Decodes (c :: s) (c :: t) w
  | esc {e b s t w o} (he : Escape e s.head? b o) (hr : Decodes s t w) :
      Decodes ('\\'.toNat :: e ++ s) (b :: t) (w + o.toNat)

end Verif.File.Spec
