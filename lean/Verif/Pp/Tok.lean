import Verif.Pp.Model
/-
The token level of multi-line macro calls: how the arguments of a call are marked off and
stripped, and how the references to them in the body are replaced.
modules/preprocs/nasm/nasm-pp.c
-/
namespace Verif.Pp

/-- The types of tokens (nasm-pp.c:127-140); the ones not named here are only made while
    single-line macros are expanded. -/
inductive Ty where
  | white | id | ppid | str | num | other
  deriving DecidableEq, Repr

/-- A token (nasm-pp.c:141-148). -/
structure Tok where
  ty : Ty
  text : Name
  deriving DecidableEq, Repr

/-- `skip_white_` (nasm-pp.c:484): one token. -/
def skipWhite : List Tok → List Tok
  | [] => []
  | t :: ts => if t.ty = .white then ts else t :: ts

/-- `tok_is_` of a token that is there (nasm-pp.c:485), for a text of one character. -/
def Tok.is (c : Nat) (t : Tok) : Bool := decide (t.ty = .other) && decide (t.text = [c])

/-- `tok_is_` (nasm-pp.c:485). -/
def headIs (c : Nat) : List Tok → Bool
  | [] => false
  | t :: _ => t.is c

/-! ## Arguments of a call -/

/-- A parameter of a call: `params[i]`, a pointer into the line, and `paramlen[i]`. -/
structure Arg where
  tail : List Tok
  len : Nat
  deriving DecidableEq, Repr

/-- The tokens of a parameter. -/
def Arg.value (a : Arg) : List Tok := a.tail.take a.len

/-- `count_mmac_params` (nasm-pp.c:1940-1980).  The message "braces do not enclose all of macro
    parameter" is not modelled.  The fuel is more than the number of tokens. -/
def marks : Nat → List Tok → List Arg
  | 0, _ => []
  | _ + 1, [] => []
  | n + 1, t :: ts =>
    let l := skipWhite (t :: ts)
    let brace := headIs 123 l
    ⟨l, 0⟩ ::
      (match l.dropWhile (fun t => !t.is (if brace then 125 else 44)) with
       | [] => []
       | _ :: r => if brace then marks n ((skipWhite r).dropWhile (fun t => !t.is 44)).tail
                   else marks n r)

/-- The loop that counts the tokens of a parameter (nasm-pp.c:4707-4717). -/
def argLen (comma brace : Bool) : List Tok → Nat
  | [] => 0
  | t :: ts =>
    if comma && t.is 44 then 0
    else if comma && decide (t.ty = .white) && headIs 44 ts then 0
    else if brace && t.is 125 then 0
    else argLen comma brace ts + 1

/-- One parameter stripped (nasm-pp.c:4700-4718). -/
def cutArg (comma : Bool) (a : Arg) : Arg :=
  let l := skipWhite a.tail
  if headIs 123 l then ⟨l.tail, argLen false true l.tail⟩ else ⟨l, argLen comma false l⟩

/-! ## References to parameters -/

/-- `conditions[]` (nasm-pp.c:254-258). -/
def conditions : List Name :=
  [[97], [97, 101], [98], [98, 101], [99], [99, 120, 122], [101], [101, 99, 120, 122], [103],
   [103, 101], [108], [108, 101],
   [110, 97], [110, 97, 101], [110, 98], [110, 98, 101], [110, 99], [110, 101], [110, 103],
   [110, 103, 101], [110, 108], [110, 108, 101], [110, 111],
   [110, 112], [110, 115], [110, 122], [111], [112], [112, 101], [112, 111], [115], [122]]

/-- `inverse_ccs[]` (nasm-pp.c:259-269), `none` for −1. -/
def inverseCcs : List (Option Nat) :=
  [some 12, some 13, some 14, some 15, some 16, none, some 17, none, some 18, some 19, some 20,
   some 21,
   some 0, some 1, some 2, some 3, some 4, some 6, some 8, some 9, some 10, some 11, some 26,
   some 27, some 30,
   some 31, some 22, some 23, some 29, some 28, some 24, some 25]

/-- The binary search of `find_cc` (nasm-pp.c:3823-3844), as in `search`. -/
def ccSearch (w : Name) : Nat → Nat → Nat → Option Nat
  | 0, _, _ => none
  | n + 1, lo, hi =>
    if lo < hi then
      let k := (hi + lo - 1) / 2
      match stricmp w (conditions[k]?.getD []) with
      | .eq => some k
      | .lt => ccSearch w n lo k
      | .gt => ccSearch w n (k + 1) hi
    else none

/-- `find_cc` (nasm-pp.c:3809-3845); the outer `none` is a read through a null pointer. -/
def findCc (l : List Tok) : Option (Option Nat) :=
  match skipWhite l with
  | [] => none
  | t :: ts =>
    if t.ty ≠ .id then some none
    else if skipWhite ts ≠ [] ∧ headIs 44 (skipWhite ts) = false then some none
    else some (ccSearch t.text 33 0 32)

/-- The digits at the beginning of a text. -/
def digitsVal : Nat → Name → Nat
  | acc, [] => acc
  | acc, c :: cs => if 48 ≤ c ∧ c ≤ 57 then digitsVal (acc * 10 + (c - 48)) cs else acc

/-- `atoi`, without overflow. -/
def atoi (s : Name) : Int :=
  match s.dropWhile (fun c => decide (c = 32 ∨ (9 ≤ c ∧ c ≤ 13))) with
  | 45 :: cs => -(digitsVal 0 cs : Int)
  | 43 :: cs => digitsVal 0 cs
  | cs => digitsVal 0 cs

/-- A number in decimal, as `%ld` and `%lu` of `sprintf` write it; the fuel suffices. -/
def decF : Nat → Nat → Name
  | 0, _ => []
  | f + 1, n => if n < 10 then [48 + n] else decF f (n / 10) ++ [48 + n % 10]

/-- The same with the fuel. -/
def dec (n : Nat) : Name := decF (n + 1) n

/-- Is the token a reference to be replaced (nasm-pp.c:3860-3863)? -/
def isRef (t : Tok) : Bool :=
  decide (t.ty = .ppid) &&
    (match t.text with
     | _ :: c :: r => ((decide (c = 43) || decide (c = 45)) && !r.isEmpty) || decide (c = 37) ||
         decide (48 ≤ c ∧ c ≤ 57)
     | _ => false)

/-- The parameter at a place, rotated (nasm-pp.c:3944-3952): the outer `none` is a place before the
    first parameter, which is read all the same; the inner one is NULL.  `%` of C truncates. -/
def paramAt (f : Frame Arg) (n : Int) : Option (Option Arg) :=
  if n ≥ f.params.length then some none
  else
    let n := if f.params.length > 1 then (n + f.rotate).tmod f.params.length else n
    if n < 0 then none else some f.params[n.toNat]?

/-- `%a:b` (nasm-pp.c:3883-3921): the loop changes its variable `k`, which `paramAt` rotates.  The
    fuel is more than the number of turns. -/
def range (f : Frame Arg) (stop : Int) : Nat → Int → Bool → Option (List Tok)
  | 0, _, _ => some []
  | n + 1, k, first =>
    if k ≤ stop then
      if k ≥ f.params.length then range f stop n (k + 1) first
      else
        let k := if f.params.length > 1 then (k + f.rotate).tmod f.params.length else k
        if k < 0 then none
        else
          match f.params[k.toNat]? with
          | none => none
          | some a =>
            match range f stop n (k + 1) (first && a.len == 0) with
            | none => none
            | some r =>
              some ((if !first && a.len != 0 then [⟨.other, [44]⟩] else []) ++ a.value ++ r)
    else some []

/-- What a reference is replaced by (nasm-pp.c:3864-4041): `none` is a read outside the parameters,
    and an error deletes the token.  The messages are not modelled. -/
def expandTok (f : Option (Frame Arg)) (t : Tok) : Option (List Tok) :=
  if isRef t then
    match f with
    | none => some []
    | some f =>
      if t.text.contains 58 then
        let stop := atoi ((t.text.dropWhile (· ≠ 58)).drop 1) - 1
        let stop := if stop < 0 then stop + f.params.length else stop
        range f stop (2 * f.params.length + stop.toNat + 3) (atoi (t.text.drop 1) - 1) true
      else
        match t.text with
        | _ :: 48 :: _ => some [⟨.num, dec f.params.length⟩]
        | _ :: 37 :: r => some [⟨.id, [46, 46, 64] ++ dec f.unique ++ [46] ++ r⟩]
        | _ :: 45 :: r =>
          match paramAt f (atoi r - 1) with
          | none => none
          | some none => none
          | some (some a) =>
            match findCc a.tail with
            | none => none
            | some none => some []
            | some (some i) =>
              match inverseCcs[i]?.join with
              | none => some []
              | some j => some [⟨.id, conditions[j]?.getD []⟩]
        | _ :: 43 :: r =>
          match paramAt f (atoi r - 1) with
          | none => none
          | some none => none
          | some (some a) =>
            match findCc a.tail with
            | none => none
            | some none => some []
            | some (some i) => some [⟨.id, conditions[i]?.getD []⟩]
        | _ =>
          match paramAt f (atoi (t.text.drop 1) - 1) with
          | none => none
          | some none => some []
          | some (some a) => some a.value
  else some [t]

/-- The first loop of `expand_mmac_params` (nasm-pp.c:3857-4050). -/
def expandToks (f : Option (Frame Arg)) : List Tok → Option (List Tok)
  | [] => some []
  | t :: ts =>
    match expandTok f t with
    | none => none
    | some r =>
      match expandToks f ts with
      | none => none
      | some rs => some (r ++ rs)

/-- Do two tokens become one (nasm-pp.c:4054-4079)?  Of two white ones the second is dropped. -/
def joined (a b : Tok) : Option Tok :=
  match a.ty, b.ty with
  | .white, .white => some a
  | .id, .id | .id, .num => some ⟨.id, a.text ++ b.text⟩
  | .num, .num => some ⟨.num, a.text ++ b.text⟩
  | _, _ => none

/-- The second loop of `expand_mmac_params` (nasm-pp.c:4053-4079): after two tokens have become
    one, the loop goes on with the next token. -/
def paste : List Tok → List Tok
  | [] => []
  | [a] => [a]
  | a :: b :: r =>
    match joined a b with
    | some c => c :: paste r
    | none => a :: paste (b :: r)

/-- `expand_mmac_params` (nasm-pp.c:3851-4083). -/
def expandLine (f : Option (Frame Arg)) (l : List Tok) : Option (List Tok) := (expandToks f l).map paste

/-! ## The lines of a call -/

/-- The word of a directive (nasm-pp.c:2350-2356). -/
def tokWord (l : List Tok) : Option Name :=
  match skipWhite l with
  | [] => none
  | t :: _ =>
    if t.ty = .ppid then
      match t.text with
      | _ :: c :: _ => if c = 37 ∨ c = 36 ∨ c = 33 then none else some t.text
      | _ => some t.text
    else none

/-- The test for `%00` (nasm-pp.c:4761-4762). -/
def Tok.isZeros (t : Tok) : Bool :=
  decide (t.ty = .ppid) && (match t.text with | _ :: 48 :: 48 :: _ => true | _ => false)

/-- `%00` in a line of the body replaced by the label, or dropped (nasm-pp.c:4758-4771). -/
def fillLabel (label : Option Tok) (l : List Tok) : List Tok :=
  l.flatMap (fun t => if t.isZeros then label.toList else [t])

/-- The places where `expand_mmacro` looks for a call, and what it would do with the label
    (nasm-pp.c:4654-4684, 4779-4797). -/
def tokCalls (line : List Tok) : List (Call (List Tok) Arg) :=
  match skipWhite line with
  | [] => []
  | t :: r =>
    if t.ty = .id ∨ t.ty = .ppid then
      ⟨t.text, marks (r.length + 1) r, fun _ => [], fillLabel none⟩ ::
        (let lead := line.take (line.length - (t :: r).length)
         let w1 := r.take (r.length - (skipWhite r).length)
         let r := skipWhite r
         let colon := headIs 58 r
         let w2 := if colon then r.take (r.length - (skipWhite r.tail).length) else []
         let r := if colon then skipWhite r.tail else r
         match r with
         | [] => []
         | n :: r =>
           if n.ty = .id then
             [⟨n.text, marks (r.length + 1) r,
               fun body => if body.any (fun l => l.any Tok.isZeros) then []
                 else [lead ++ [t] ++ w1 ++ w2 ++ (if colon then [] else [⟨.other, [58]⟩])],
               fillLabel (some t)⟩]
           else [])
    else []

/-- The machine for lines of tokens.  What is left arbitrary are the single-line macros, the
    conditions and the counts.  A line whose references read outside the parameters crashes the
    program (`expandLine` is `none`); here it is left as it is. -/
def tokSig (User : Type) (cond : User → List (Head Arg) → List Tok → Option Bool)
    (act : User → List Tok → User) (count turn : User → List Tok → Option Int)
    (header : User → List Tok → Option (Head Arg)) (smac : User → List Tok → List Tok) : Sig where
  Line := List Tok
  User := User
  Param := Arg
  word := tokWord
  subst := fun f l => (expandLine f l).getD l
  cond := cond
  act := act
  count := count
  turn := turn
  header := header
  smac := smac
  calls := tokCalls
  cut := cutArg

end Verif.Pp
