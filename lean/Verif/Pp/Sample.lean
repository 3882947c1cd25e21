import Verif.Pp.TokLemmas
import Verif.Pp.Spec
/-
A machine on which the theorems can be seen at work: conditions, counts and the numbers of
parameters are plain numbers, and there are no single-line macros.
-/
namespace Verif.Pp.Sample
open Verif.Pp

/-- Characters. -/
def t (cs : List Char) : Name := cs.map Char.toNat

def id' (cs : List Char) : Tok := ⟨.id, t cs⟩
def pp (cs : List Char) : Tok := ⟨.ppid, t ('%' :: cs)⟩
def num (n : Nat) : Tok := ⟨.num, dec n⟩
def ot (c : Char) : Tok := ⟨.other, [c.toNat]⟩
def ws : Tok := ⟨.white, [32]⟩

/-- The first number of a line; a minus sign may be before it. -/
def number : List Tok → Option Int
  | [] => none
  | t :: ts =>
    if t.ty = .num then some (atoi t.text)
    else if t = ot '-' then (number ts).map (- ·)
    else number ts

/-- `%macro name n`, `%macro name n+`, with default parameters after it. -/
def header (l : List Tok) : Option (Head Arg) :=
  match l.filter (fun t => t.ty ≠ .white) with
  | d :: n :: c :: r =>
    if n.ty = .id then
      let plus := headIs 43 r
      let r := if plus then r.tail else r
      let defs := marks (r.length + 1) r
      some ⟨n.text, decide (d = pp ['m', 'a', 'c', 'r', 'o']), atoi c.text, atoi c.text + defs.length, plus, defs⟩
    else none
  | _ => none

/-- The machine. -/
abbrev T : Sig :=
  tokSig Nat (fun _ _ l => (number l).map (fun n => decide (n ≠ 0)))
    (fun u l => ((number l).map Int.toNat).getD u) (fun _ l => number l) (fun _ l => number l)
    (fun _ l => header l) (fun _ l => l)

theorem lawful : Lawful T where
  subst_word := by
    intro f l i h
    have h : kind T l = some i := h
    unfold kind at h
    split at h
    · cases h
    · rename_i w hw
      have hw : tokWord l = some w := hw
      split at h
      · rename_i hf
        show tokWord ((expandLine f l).getD l) = tokWord l
        rw [tok_word f l w hw hf, hw]
      · cases h

/-- The lines that come out; `none` is a message. -/
def texts (es : List (Event T)) : List (Option (List Tok)) :=
  es.map (fun e => match e with | .text _ l => some l | .report _ => none)

/-- The run of the program. -/
def result (k : Nat) (ls : List (List Tok)) : List (Option (List Tok)) × Option End :=
  let r := run k (start (S := T) (0 : Nat) ls)
  (texts r.1, match r.2 with | .inl _ => none | .inr e => some e)

/-! Lines. -/

def IF (ts : List Tok) : List Tok := pp ['i', 'f'] :: ws :: ts
def ELIF (ts : List Tok) : List Tok := pp ['e', 'l', 'i', 'f'] :: ws :: ts
def ELSE : List Tok := [pp ['e', 'l', 's', 'e']]
def ENDIF : List Tok := [pp ['e', 'n', 'd', 'i', 'f']]
def REP (n : Nat) : List Tok := [pp ['r', 'e', 'p'], ws, num n]
def ENDREP : List Tok := [pp ['e', 'n', 'd', 'r', 'e', 'p']]
def EXITREP : List Tok := [pp ['e', 'x', 'i', 't', 'r', 'e', 'p']]
def MACRO (name : Char) (n : Nat) (more : List Tok) : List Tok :=
  pp ['m', 'a', 'c', 'r', 'o'] :: ws :: id' [name] :: ws :: num n :: more
def ENDMACRO : List Tok := [pp ['e', 'n', 'd', 'm', 'a', 'c', 'r', 'o']]
def ENDM : List Tok := [pp ['e', 'n', 'd', 'm']]
def ROTATE (n : Nat) : List Tok := [pp ['r', 'o', 't', 'a', 't', 'e'], ws, num n]
def CLEAR : List Tok := [pp ['c', 'l', 'e', 'a', 'r']]
/-- A line for the assembler. -/
def say (c : Char) : List Tok := [id' [c], ws, num 1]
/-- A call without parameters. -/
def call (c : Char) : List Tok := [id' [c]]

end Verif.Pp.Sample
