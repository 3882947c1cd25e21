import Verif.Pp.Smac
/-
C81: what a line with single-line macros in it stands for.
-/
namespace Verif.Pp

/-- A token that is the one character `c`. -/
def sym (c : Nat) : Tok := ⟨.other, [c]⟩

/-- A line of white space. -/
def Blank (l : List Tok) : Prop := ∀ t ∈ l, t.ty = .white

/-- The parentheses of an argument close again and no comma is outside of them; `d` are open. -/
def closed : Nat → List Tok → Bool
  | d, [] => decide (d = 0)
  | d, t :: r =>
    if t = sym 40 then closed (d + 1) r
    else if t = sym 41 then decide (d > 0) && closed (d - 1) r
    else if t = sym 44 then decide (d > 0) && closed d r
    else closed d r

/-- The braces close again; `d` are open. -/
def braced : Nat → List Tok → Bool
  | d, [] => decide (d = 0)
  | d, t :: r =>
    if t = sym 123 then braced (d + 1) r
    else if t = sym 125 then decide (d > 0) && braced (d - 1) r
    else braced d r

/-- `a` is the argument `p`, with white space around it that does not count. -/
def IsArg (a p : List Tok) : Prop :=
  ∃ w1 w2, Blank w1 ∧ Blank w2 ∧ a = w1 ++ p ++ w2 ∧ closed 0 p = true ∧
    (∀ t, p.head? = some t → t.ty ≠ .white ∧ t ≠ sym 123) ∧ (∀ t, p.getLast? = some t → t.ty ≠ .white)

/-- `a` is the argument `p` in braces. -/
def IsBraced (a p : List Tok) : Prop :=
  ∃ w1 w2, Blank w1 ∧ Blank w2 ∧ a = w1 ++ sym 123 :: p ++ sym 125 :: w2 ∧ braced 0 p = true

/-- `l` begins with the arguments `ps`, with commas between them and a parenthesis after them; the
    last may be in braces. -/
inductive Args : List Tok → List (List Tok) → List Tok → Prop
  | last (a p rest) : IsArg a p → Args (a ++ sym 41 :: rest) [p] rest
  | lastBraced (a p rest) : IsBraced a p → Args (a ++ sym 41 :: rest) [p] rest
  | more (a p l ps rest) : IsArg a p → Args l ps rest → Args (a ++ sym 44 :: l) (p :: ps) rest

/-- The body of a macro with its arguments in it. -/
def fill (ps : List (List Tok)) (body : List Piece) : List Tok :=
  body.flatMap (fun | .tok t => [t] | .param i => ps.getD i [])

/-- The line `l` stands for the line `r`: every use of a macro stands for what its body, with the
    arguments in it, stands for, where the macro itself is not a macro any more.  `busy` are the
    macros in whose bodies the line is, `top` says that it is in none. -/
inductive Expands (T : SMacs) : Bool → List Nat → List Tok → List Tok → Prop
  | nil (top busy) : Expands T top busy [] []
  /-- What is no macro stays. -/
  | other (top busy t l r) : t.ty = .white ∨ T.cands t = [] → Expands T top busy l r →
      Expands T top busy (t :: l) (t :: r)
  /-- A macro in its own body stays. -/
  | own (top busy t l r m ms) : t.ty ≠ .white → T.cands t = m :: ms → (T.mac m).nparam = 0 → (T.mac m).body ≠ [] →
      m ∈ busy → Expands T top busy l r → Expands T top busy (t :: l) (t :: r)
  /-- A macro without parameters and with nothing in its body goes away. -/
  | empty (top busy t l r m ms) : t.ty ≠ .white → T.cands t = m :: ms → (T.mac m).nparam = 0 → (T.mac m).body = [] →
      Expands T top busy l r → Expands T top busy (t :: l) r
  /-- A macro without parameters. -/
  | simple (top busy t l r1 r2 m ms) : t.ty ≠ .white → T.cands t = m :: ms → (T.mac m).nparam = 0 → (T.mac m).body ≠ [] → m ∉ busy →
      Expands T false (m :: busy) (fill [] (T.mac m).body) r1 → Expands T top busy l r2 →
      Expands T top busy (t :: l) (r1 ++ r2)
  /-- The name of a macro with parameters with something else than a parenthesis after it stays. -/
  | name (top busy t w u l r m ms) : t.ty ≠ .white → T.cands t = m :: ms → (T.mac m).nparam ≠ 0 → Blank w →
      u.ty ≠ .white → u ≠ sym 40 → Expands T top busy (w ++ u :: l) r →
      Expands T top busy (t :: w ++ u :: l) (t :: r)
  /-- And so it does at the end of the line. -/
  | nameLast (busy t w m ms) : t.ty ≠ .white → T.cands t = m :: ms → (T.mac m).nparam ≠ 0 → Blank w →
      Expands T true busy (t :: w) (t :: w)
  /-- A macro with parameters: of those with its name, the first with as many parameters. -/
  | call (top busy t w l ps rest r1 r2 m ms k) : t.ty ≠ .white → T.cands t = m :: ms → (T.mac m).nparam ≠ 0 →
      Blank w → Args l ps rest → (m :: ms).find? (fun k => decide ((T.mac k).nparam = ps.length)) = some k → k ∉ busy →
      Expands T false (k :: busy) (fill ps (T.mac k).body) r1 → Expands T top busy rest r2 →
      Expands T top busy (t :: w ++ sym 40 :: l) (r1 ++ r2)
  /-- In its own body it stays. -/
  | callOwn (top busy t w l ps rest r m ms k) : t.ty ≠ .white → T.cands t = m :: ms → (T.mac m).nparam ≠ 0 →
      Blank w → Args l ps rest → (m :: ms).find? (fun k => decide ((T.mac k).nparam = ps.length)) = some k → k ∈ busy →
      Expands T top busy (w ++ sym 40 :: l) r →
      Expands T top busy (t :: w ++ sym 40 :: l) (t :: r)

/-- Names that have come to stand side by side are one name, and so are those with ` %+ ` between
    them; the truth value says whether there were any of the former. -/
inductive Joined : List Tok → List Tok → Bool → Prop
  | nil : Joined [] [] false
  | lone (t) : Joined [t] [t] false
  | join (t u l r b) : t.word = true → u.joins = true → Joined (⟨t.ty, t.text ++ u.text⟩ :: l) r b →
      Joined (t :: u :: l) r true
  | plus (t u v l r b) : t.word = true → u.ty = .white → v = ⟨.ppid, [37, 43]⟩ →
      (∀ w, l.head? = some w → w.ty ≠ .white) → Joined (t :: l) r b → Joined (t :: u :: v :: l) r b
  | plusWhite (t u v w l r b) : t.word = true → u.ty = .white → v = ⟨.ppid, [37, 43]⟩ → w.ty = .white →
      Joined (t :: l) r b → Joined (t :: u :: v :: w :: l) r b
  | keep (t u l r b) : (t.word = true → u.joins = false ∧ (u.ty = .white → l.head? ≠ some ⟨.ppid, [37, 43]⟩)) →
      Joined (u :: l) r b → Joined (t :: u :: l) (t :: r) b

/-- The line `l` is handed on as `r`: its macros are expanded and names are joined, again and again
    until there is nothing more to join. -/
inductive Becomes (T : SMacs) : List Tok → List Tok → Prop
  | done (l r x) : Expands T true [] l r → Joined r x false → Becomes T l (if x = [] then [⟨.white, [32]⟩] else x)
  | again (l r x y) : Expands T true [] l r → Joined r x true → Becomes T x y → Becomes T l y

end Verif.Pp
