import Verif.Pp.Tok
/-
Expansion of single-line macros in a line.
modules/preprocs/nasm/nasm-pp.c

Which macros a token may mean is a parameter of the model (the tables for names and the tables of
the contexts, nasm-pp.c:4127-4144); `__FILE__` and `__LINE__` are not modelled.
-/
namespace Verif.Pp

/-- A token of the expansion of a macro: `TOK_SMAC_PARAM + i` stands for a parameter. -/
inductive Piece where
  | tok (t : Tok)
  | param (i : Nat)
  deriving DecidableEq, Repr

/-- `SMacro` (nasm-pp.c:62-71).  The expansion is kept back to front there. -/
structure SMac where
  nparam : Nat
  body : List Piece
  deriving Repr

/-- The macros of a run: `cands t` are the macros of the list that `t` is looked up in whose name is
    that of `t`, in their order. -/
structure SMacs where
  cands : Tok → List Nat
  mac : Nat → SMac

/-- A token of the line that is being expanded: `fin m` is `TOK_SMAC_END` with `mac = m`. -/
inductive SItem where
  | tok (t : Tok)
  | fin (m : Nat)
  deriving DecidableEq, Repr

/-- What is reported. -/
inductive SErr where
  | unclosed | braces | count
  deriving DecidableEq, Repr

/-- The macros that are `in_progress`, what is left of the line, what has been done and what has
    been reported. -/
structure SSt where
  busy : List Nat
  todo : List SItem
  out : List Tok
  errs : List SErr
  deriving DecidableEq, Repr

/-- `m->in_progress = FALSE`. -/
def release (m : Nat) (busy : List Nat) : List Nat := busy.filter (fun x => decide (x ≠ m))

/-- The loop that looks for the parenthesis (nasm-pp.c:4192-4201): the macros in progress, the white
    space, the rest.  The ends of macros are deleted. -/
def skipWs : List Nat → List SItem → List Nat × List Tok × List SItem
  | b, [] => (b, [], [])
  | b, .fin m :: r => skipWs (release m b) r
  | b, .tok t :: r =>
    if t.ty = .white then ((skipWs b r).1, t :: (skipWs b r).2.1, (skipWs b r).2.2)
    else (b, [], .tok t :: r)

/-- The variables of the parameter loop (nasm-pp.c:4214-4222): the parameters before the current
    one, the current one as a pointer and a size, and the counters. -/
structure Scan where
  done : List (List SItem × Nat)
  start : List SItem
  size : Nat
  white : Nat
  paren : Nat
  braces : Int
  deriving Repr

/-- What the parameter loop ends with: the macros in progress, the parameters, the tokens it went
    over, the rest, and what was reported. -/
structure Scanned where
  busy : List Nat
  params : List (List SItem × Nat)
  over : List Tok
  rest : List SItem
  errs : List SErr
  deriving Repr

/-- The end of a turn of the loop (nasm-pp.c:4290-4297). -/
def Scan.count (s : Scan) : Scan × List SErr :=
  ({ s with size := s.size + s.white + 1, white := 0, braces := if s.braces < 0 then 0 else s.braces },
    if s.braces < 0 then [.braces] else [])

/-- A turn of the loop for the token `t`, with `r` behind it (nasm-pp.c:4241-4297); `none` at the
    closing parenthesis. -/
def Scan.turn (s : Scan) (t : Tok) (r : List SItem) : Option (Scan × List SErr) :=
  if t.ty = .white ∧ s.braces ≤ 0 then
    if s.size = 0 then some ({ s with start := r }, []) else some ({ s with white := s.white + 1 }, [])
  else if t.is 44 ∧ s.paren = 0 ∧ s.braces ≤ 0 then
    some ({ s with done := s.done ++ [(s.start, s.size)], start := r, size := 0, white := 0 }, [])
  else if t.is 123 ∧ (s.braces > 0 ∨ (s.braces = 0 ∧ s.size = 0)) then
    if s.braces = 0 then some ({ s with start := r, braces := 1 }, [])
    else some { s with braces := s.braces + 1 }.count
  else if t.is 125 ∧ s.braces > 0 then
    if s.braces = 1 then some ({ s with braces := -1 }, []) else some { s with braces := s.braces - 1 }.count
  else if t.is 40 ∧ s.braces = 0 then some { s with paren := s.paren + 1 }.count
  else if t.is 41 ∧ s.braces ≤ 0 then
    if s.paren = 0 then none else some { s with paren := s.paren - 1 }.count
  else some s.count

/-- The parameter loop (nasm-pp.c:4223-4298). -/
def scanArgs : List Nat → Scan → List SItem → Scanned
  | b, s, [] => ⟨b, s.done ++ [(s.start, s.size)], [], [], [.unclosed]⟩
  | b, s, .fin m :: r => scanArgs (release m b) s r
  | b, s, .tok t :: r =>
    match s.turn t r with
    | none => ⟨b, s.done ++ [(s.start, s.size)], [t], r, []⟩
    | some (s', e) =>
      let x := scanArgs b s' r
      { x with over := t :: x.over, errs := e ++ x.errs }

/-- The tokens among items. -/
def toks : List SItem → List Tok
  | [] => []
  | .tok t :: r => t :: toks r
  | .fin _ :: r => toks r

/-- A parameter is copied (nasm-pp.c:4348-4361).  The pointer may be to the end of a macro, which
    has been deleted since: `none`. -/
def argValue (p : List SItem × Nat) : Option (List Tok) :=
  if p.2 = 0 then some [] else
    match p.1 with
    | .fin _ :: _ => none
    | l => some ((toks l).take p.2)

/-- The expansion with the parameters in it (nasm-pp.c:4343-4368). -/
def fillBody (ps : List (List SItem × Nat)) : List Piece → Option (List Tok)
  | [] => some []
  | .tok t :: r => (fillBody ps r).map (t :: ·)
  | .param i :: r => (argValue (ps.getD i ([], 0))).bind (fun a => (fillBody ps r).map (a ++ ·))

/-- What a turn of the main loop ends with. -/
inductive SStep where
  | stop
  | freed
  | next (s : SSt)
  deriving Repr

/-- A token goes to the output (nasm-pp.c:4388-4395). -/
def SSt.copy (s : SSt) (t : Tok) (busy : List Nat) (todo : List SItem) (errs : List SErr) : SStep :=
  .next ⟨busy, todo, s.out ++ [t], s.errs ++ errs⟩

/-- A turn of the main token loop (nasm-pp.c:4124-4396). -/
def SSt.step (T : SMacs) (s : SSt) : SStep :=
  match s.todo with
  | [] => .stop
  | .fin m :: r => .next { s with busy := release m s.busy, todo := r }
  | .tok t :: r =>
    if t.ty = .white then s.copy t s.busy r [] else
    match T.cands t with
    | [] => s.copy t s.busy r []
    | m :: ms =>
      if (T.mac m).nparam = 0 then
        if (T.mac m).body = [] then .next { s with todo := r }
        else if m ∈ s.busy then s.copy t s.busy r []
        else
          match fillBody [] (T.mac m).body with
          | none => .freed
          | some x => .next { s with busy := m :: s.busy, todo := x.map .tok ++ .fin m :: r }
      else
        let w := skipWs s.busy r
        match w.2.2 with
        | .tok p :: r' =>
          if p.is 40 then
            let x := scanArgs w.1 ⟨[], r', 0, 0, 0, 0⟩ r'
            let back : List SItem := (w.2.1 ++ p :: x.over).map .tok ++ x.rest
            match (m :: ms).find? (fun k => decide ((T.mac k).nparam = x.params.length)) with
            | none => s.copy t x.busy back (x.errs ++ [.count])
            | some k =>
              if k ∈ x.busy then s.copy t x.busy back x.errs
              else
                match fillBody x.params (T.mac k).body with
                | none => .freed
                | some y => .next ⟨k :: x.busy, y.map .tok ++ .fin k :: x.rest, s.out, s.errs ++ x.errs⟩
          else s.copy t w.1 (w.2.1.map .tok ++ w.2.2) []
        | _ => s.copy t w.1 (w.2.1.map .tok ++ w.2.2) []

/-- How the expansion of a line ends; `running` when the fuel is not enough. -/
inductive SOut where
  | running
  | freed
  | line (l : List Tok) (errs : List SErr)
  deriving DecidableEq, Repr

/-- The main token loop, with the macros left in progress. -/
def mainLoop (T : SMacs) : Nat → SSt → Option (Option SSt)
  | 0, _ => none
  | n + 1, s =>
    match s.step T with
    | .stop => some (some s)
    | .freed => some none
    | .next s' => mainLoop T n s'

/-- Names and preprocessor names. -/
def Tok.word (t : Tok) : Bool := decide (t.ty = .id) || decide (t.ty = .ppid)

/-- What joins the name before it. -/
def Tok.joins (t : Tok) : Bool := t.word || decide (t.ty = .num)

/-- `%+`. -/
def Tok.plus (t : Tok) : Bool := decide (t = ⟨.ppid, [37, 43]⟩)

/-- The scan for names to join (nasm-pp.c:4405-4437): the line and `rescan`.  The fuel is the length
    of the line. -/
def glue : Nat → List Tok → List Tok × Bool
  | 0, l => (l, false)
  | n + 1, l =>
    match l with
    | [] => ([], false)
    | t :: [] => ([t], false)
    | t :: u :: r =>
      if t.word then
        if u.joins then ((glue n (⟨t.ty, t.text ++ u.text⟩ :: r)).1, true)
        else if u.ty = .white ∧ headPlus r then glue n (t :: skipWhite (r.drop 1))
        else (t :: (glue n (u :: r)).1, (glue n (u :: r)).2)
      else (t :: (glue n (u :: r)).1, (glue n (u :: r)).2)
where
  /-- The first token is `%+`. -/
  headPlus : List Tok → Bool
    | [] => false
    | t :: _ => t.plus

/-- `expand_smacro` (nasm-pp.c:4092-4466), from `again:`. -/
def expandAgain (T : SMacs) : Nat → List Nat → List SErr → List Tok → SOut
  | 0, _, _, _ => .running
  | n + 1, busy, errs, l =>
    match mainLoop T n ⟨busy, l.map .tok, [], errs⟩ with
    | none => .running
    | some none => .freed
    | some (some s) =>
      let g := glue s.out.length s.out
      if g.2 then expandAgain T n s.busy s.errs g.1
      else .line (if g.1 = [] then [⟨.white, [32]⟩] else g.1) s.errs

/-- `expand_smacro` (nasm-pp.c:4092-4466) of a line that is there. -/
def expandSmacro (T : SMacs) (fuel : Nat) (l : List Tok) : SOut := expandAgain T fuel [] [] l

end Verif.Pp
