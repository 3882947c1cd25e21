import Verif.Pp.Tok
/-
How the arguments of a macro call are written, what the references to them mean, and the condition
codes of the processor.
-/
namespace Verif.Pp

/-! ## Arguments -/

def comma : Tok := ⟨.other, [44]⟩
def open' : Tok := ⟨.other, [123]⟩
def close' : Tok := ⟨.other, [125]⟩

/-- An argument: as it is, or in braces. -/
inductive Written where
  | plain (ts : List Tok)
  | braced (ts : List Tok)

def Written.value : Written → List Tok
  | .plain ts | .braced ts => ts

def Written.toks : Written → List Tok
  | .plain ts => ts
  | .braced ts => open' :: (ts ++ [close'])

/-- A plain argument is not empty, has no comma in it, does not begin with white space or a brace
    and does not end in white space; an argument in braces has no closing brace in it. -/
def Written.ok : Written → Prop
  | .plain ts => comma ∉ ts ∧ (∃ t r, ts = t :: r ∧ t.ty ≠ .white ∧ t ≠ open') ∧
      ∀ t ∈ ts.getLast?, t.ty ≠ .white
  | .braced ts => close' ∉ ts

/-- An argument with white space before and after it. -/
structure Spaced where
  before : Option Name
  arg : Written
  after : Option Name

/-- White space. -/
def space : Option Name → List Tok
  | none => []
  | some w => [⟨.white, w⟩]

/-- The arguments as they are written.  There is no white space at the end of a line. -/
def render : List Spaced → List Tok
  | [] => []
  | [s] => space s.before ++ s.arg.toks
  | s :: r => space s.before ++ (s.arg.toks ++ (space s.after ++ comma :: render r))

/-! ## References -/

/-- What a token of the body of a macro is. -/
inductive Ref where
  | tok (t : Tok)
  | count                -- `%0`
  | own (x : Name)       -- `%%x`
  | arg (k : Nat)        -- `%k`

def Ref.toTok : Ref → Tok
  | .tok t => t
  | .count => ⟨.ppid, [37, 48]⟩
  | .own x => ⟨.ppid, 37 :: 37 :: x⟩
  | .arg k => ⟨.ppid, 37 :: dec k⟩

/-- A token that stands for itself is no `%` word, or a directive; parameters are counted from 1;
    a local name has no colon in it. -/
def Ref.ok : Ref → Prop
  | .tok t => t.ty = .ppid → ∃ c r, t.text = 37 :: c :: r ∧ (97 ≤ c ∧ c ≤ 122 ∨ 65 ≤ c ∧ c ≤ 90)
  | .count => True
  | .own x => 58 ∉ x
  | .arg k => 1 ≤ k

/-- The argument `%k` stands for: counted from the one the list has been rotated to. -/
def argument (f : Frame Arg) (k : Nat) : List Tok :=
  if k ≤ f.params.length then
    match f.params[(k - 1 + f.rotate.toNat) % f.params.length]? with
    | some a => a.value
    | none => []
  else []

/-- What a token of the body stands for. -/
def Ref.meaning (f : Frame Arg) : Ref → List Tok
  | .tok t => [t]
  | .count => [⟨.num, dec f.params.length⟩]
  | .own x => [⟨.id, [46, 46, 64] ++ dec f.unique ++ [46] ++ x⟩]
  | .arg k => argument f k

/-! ## Condition codes -/

/-- The condition codes of the processor with their numbers (Intel SDM volume 1, appendix B). -/
def ccNumber : List (Name × Nat) :=
  [([111], 0), ([110, 111], 1), ([98], 2), ([99], 2), ([110, 97, 101], 2),
   ([97, 101], 3), ([110, 98], 3), ([110, 99], 3), ([101], 4), ([122], 4),
   ([110, 101], 5), ([110, 122], 5), ([98, 101], 6), ([110, 97], 6),
   ([97], 7), ([110, 98, 101], 7), ([115], 8), ([110, 115], 9),
   ([112], 10), ([112, 101], 10), ([110, 112], 11), ([112, 111], 11),
   ([108], 12), ([110, 103, 101], 12), ([103, 101], 13), ([110, 108], 13),
   ([108, 101], 14), ([110, 103], 14), ([103], 15), ([110, 108, 101], 15)]

/-- The number of the opposite condition: the lowest bit is the other. -/
def opposite (n : Nat) : Nat := if n % 2 = 0 then n + 1 else n - 1

end Verif.Pp
