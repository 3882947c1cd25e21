import Verif.Gas.Model
/-
What conditional assembly means: programs as trees, how they are written in lines, and which lines are assembled.
-/
namespace Verif.Gas
variable {L : Lang}

/-- A program: text, `.set`, a conditional with its two branches (the second perhaps missing), a repetition; each with what follows. -/
inductive Prog (L : Lang) where
  | nil
  | text (t : L.Text) (p : Prog L)
  | set (a : L.Set) (p : Prog L)
  | cond (c : L.Cond) (yes : Prog L) (p : Prog L)
  | condElse (c : L.Cond) (yes no : Prog L) (p : Prog L)
  | rept (e : L.Count) (body : Prog L) (p : Prog L)

/-- As it is written. -/
def Prog.lines : Prog L → List (Line L)
  | .nil => []
  | .text t p => .text t :: p.lines
  | .set a p => .set a :: p.lines
  | .cond c yes p => .cond c :: (yes.lines ++ .endif :: p.lines)
  | .condElse c yes no p => .cond c :: (yes.lines ++ .els :: (no.lines ++ .endif :: p.lines))
  | .rept e body p => .rept e :: (body.lines ++ .endr :: p.lines)

/-- A step done a number of times. -/
def times {α : Type} (f : α → α) : Nat → α → α
  | 0, x => x
  | n + 1, x => times f n (f x)

/-- The lines that are assembled, behind those before, and the state after them. -/
def Prog.exec : Prog L → L.State × List L.Out → L.State × List L.Out
  | .nil, s => s
  | .text t p, s => p.exec (s.1, s.2 ++ [L.subst s.1 t])
  | .set a p, s => p.exec (L.set s.1 a, s.2)
  | .cond c yes p, s => p.exec (if L.test s.1 c = .is true then yes.exec s else s)
  | .condElse c yes no p, s => p.exec (if L.test s.1 c = .is true then yes.exec s else no.exec s)
  | .rept e body p, s => p.exec (times body.exec (L.count s.1 e).toNat s)

/-- All conditions have a value. -/
def Lang.Total (L : Lang) : Prop := ∀ s c, ∃ b, L.test s c = .is b

/-- No branch `.else`. -/
def Prog.NoElse : Prog L → Prop
  | .nil => True
  | .text _ p => p.NoElse
  | .set _ p => p.NoElse
  | .cond _ yes p => yes.NoElse ∧ p.NoElse
  | .condElse _ _ _ _ => False
  | .rept _ body p => body.NoElse ∧ p.NoElse

end Verif.Gas
