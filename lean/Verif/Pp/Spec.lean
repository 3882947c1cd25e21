import Verif.Pp.Model
/-
What a structured source file means: blocks that nest, and what each of them stands for.  Nothing here mentions
the states of conditionals, the stack of active macros, markers or counters of the program.
-/
namespace Verif.Pp

mutual
/-- A sequence of lines with its block structure. -/
inductive Block (L : Type) where
  | nil
  /-- a line for the assembler, or a macro call -/
  | text (l : L) (k : Block L)
  /-- a directive that stands for itself, such as `%define` -/
  | plain (l : L) (k : Block L)
  /-- `%rotate` -/
  | rotate (l : L) (k : Block L)
  /-- `%exitrep` -/
  | exitrep (l : L) (k : Block L)
  /-- `%macro` … `%endmacro` -/
  | macro (l : L) (body : Block L) (e : L) (k : Block L)
  /-- `%rep` … `%endrep` -/
  | rep (l : L) (body : Block L) (e : L) (k : Block L)
  /-- `%if` … -/
  | cond (l : L) (body : Block L) (arms : Arms L) (k : Block L)
/-- The rest of a conditional. -/
inductive Arms (L : Type) where
  | endif (l : L)
  | els (l : L) (body : Block L) (e : L)
  | elif (l : L) (body : Block L) (more : Arms L)
end

mutual
/-- The lines of a block, in the order in which they are written. -/
def Block.lines {L : Type} : Block L → List L
  | .nil => []
  | .text l k | .plain l k | .rotate l k | .exitrep l k => l :: k.lines
  | .macro l b e k | .rep l b e k => l :: (b.lines ++ e :: k.lines)
  | .cond l b arms k => l :: (b.lines ++ (arms.lines ++ k.lines))
/-- The lines of the rest of a conditional. -/
def Arms.lines {L : Type} : Arms L → List L
  | .endif l => [l]
  | .els l b e => l :: (b.lines ++ [e])
  | .elif l b more => l :: (b.lines ++ more.lines)
end

mutual
/-- Every line changed. -/
def Block.map {L : Type} (f : L → L) : Block L → Block L
  | .nil => .nil
  | .text l k => .text (f l) (k.map f)
  | .plain l k => .plain (f l) (k.map f)
  | .rotate l k => .rotate (f l) (k.map f)
  | .exitrep l k => .exitrep (f l) (k.map f)
  | .macro l b e k => .macro (f l) (b.map f) (f e) (k.map f)
  | .rep l b e k => .rep (f l) (b.map f) (f e) (k.map f)
  | .cond l b arms k => .cond (f l) (b.map f) (arms.map f) (k.map f)
/-- Every line changed. -/
def Arms.map {L : Type} (f : L → L) : Arms L → Arms L
  | .endif l => .endif (f l)
  | .els l b e => .els (f l) (b.map f) (f e)
  | .elif l b more => .elif (f l) (b.map f) (more.map f)
end

/-! ## Which lines are which -/

/-- The directive a line is, as its place in the table of directives. -/
def kind (S : Sig) (l : S.Line) : Option Nat :=
  match S.word l with
  | none => none
  | some w => if (look w).found then (look w).idx else none

/-- A line that does not begin with a directive or anything that could be taken for one: its
    first token is no `%` word, or one that comes before every directive in the order of the
    table, as the parameters `%1`, `%+1`, `%{1}` do. -/
def neutral (S : Sig) (l : S.Line) : Bool :=
  match S.word l with
  | none => true
  | some w => decide (look w = ⟨none, false⟩)

/-- The directives that only change single-line macros and the context stack; `%include` and
    `%clear` are not among them. -/
def isPlain (i : Nat) : Bool :=
  decide (i < 66) && !isCond (some i) &&
    !([ppMacro, ppImacro, ppEndm, ppEndmacro, ppRotate, ppRep, ppEndrep, ppExitrep, ppClear,
       ppInclude].contains i)

def isKind (S : Sig) (l : S.Line) (p : Nat → Bool) : Bool :=
  match kind S l with
  | none => false
  | some i => p i

mutual
/-- Every line of the block is of the kind its place says.  A macro that is defined within
    another block has to end in `%endmacro`, not `%endm` (`top` is false there); `%exitrep` is
    in a `%rep` block of the same file or macro (`inRep`). -/
def Block.ok (S : Sig) (top inRep : Bool) : Block S.Line → Bool
  | .nil => true
  | .text l k => neutral S l && k.ok S top inRep
  | .plain l k => isKind S l isPlain && k.ok S top inRep
  | .rotate l k => isKind S l (· == ppRotate) && k.ok S top inRep
  | .exitrep l k => inRep && isKind S l (· == ppExitrep) && k.ok S top inRep
  | .macro l b e k =>
    isKind S l (fun i => i == ppMacro || i == ppImacro) && b.ok S false false &&
      isKind S e (fun i => i == ppEndmacro || (top && i == ppEndm)) && k.ok S top inRep
  | .rep l b e k =>
    isKind S l (· == ppRep) && b.ok S false true && isKind S e (· == ppEndrep) && k.ok S top inRep
  | .cond l b arms k =>
    isKind S l (fun i => decide (ppIf ≤ i ∧ i ≤ ppIfstr)) && b.ok S top inRep &&
      arms.ok S top inRep && k.ok S top inRep
/-- The same for the rest of a conditional. -/
def Arms.ok (S : Sig) (top inRep : Bool) : Arms S.Line → Bool
  | .endif l => isKind S l (· == ppEndif)
  | .els l b e => isKind S l (· == ppElse) && b.ok S top inRep && isKind S e (· == ppEndif)
  | .elif l b more =>
    isKind S l (fun i => decide (ppElif ≤ i ∧ i ≤ ppElifstr)) && b.ok S top inRep &&
      more.ok S top inRep
end

/-- What is assumed of the arbitrary parts: substituting parameters leaves a directive the
    directive it is. -/
structure Lawful (S : Sig) : Prop where
  subst_word : ∀ f l i, kind S l = some i → S.word (S.subst f l) = S.word l

/-! ## What a block stands for -/

/-- A macro definition: its number, heading and body. -/
structure SDef (S : Sig) where
  num : Nat
  head : Head S.Param
  body : Block S.Line

/-- The state: the single-line macros and contexts, the definitions (newest first), how many there
    have been, those being expanded, the parameters of the call the line is in, and the number of
    calls made. -/
structure Env (S : Sig) where
  user : S.User
  defs : List (SDef S)
  nextDef : Nat
  busy : List Nat
  frame : Option (Frame S.Param)
  unique : Nat

variable {S : Sig}

/-- The value of a condition, where the line stands. -/
def holds (e : Env S) (l : S.Line) : Option Bool :=
  S.cond e.user (e.defs.map (·.head)) (S.subst e.frame l)

/-- The branch that is assembled: the first one whose condition holds, or the one after `%else`
    (`nil` if there is none).  There is no answer if a condition that is needed has no value. -/
def pickArms (e : Env S) : Arms S.Line → Option (Block S.Line)
  | .endif _ => some .nil
  | .els _ b _ => some b
  | .elif l b more =>
    match holds e l with
    | none => none
    | some true => some b
    | some false => pickArms e more

/-- The same, from `%if`. -/
def pick (e : Env S) (l : S.Line) (b : Block S.Line) (arms : Arms S.Line) : Option (Block S.Line) :=
  match holds e l with
  | none => none
  | some true => some b
  | some false => pickArms e arms

mutual
/-- The rest of a `%rep` block after `%exitrep`: no line becomes a conditional when parameters are
    substituted, and the conditions have values. -/
def Block.quiet (e : Env S) : Block S.Line → Bool
  | .nil => true
  | .text l k =>
    (match S.word (S.subst e.frame l) with
     | none => true
     | some w => !isCond (look w).idx) && k.quiet e
  | .plain _ k | .rotate _ k | .exitrep _ k => k.quiet e
  | .macro _ b _ k | .rep _ b _ k => b.quiet e && k.quiet e
  | .cond l b arms k => (holds e l).isSome && b.quiet e && arms.quiet e && k.quiet e
/-- The same for the rest of a conditional. -/
def Arms.quiet (e : Env S) : Arms S.Line → Bool
  | .endif _ => true
  | .els _ b _ => b.quiet e
  | .elif l b more => (holds e l).isSome && b.quiet e && more.quiet e
end

/-- Is this the macro a name with `n` parameters calls?  Names of `%imacro` macros are compared
    without case. -/
def answers (d : SDef S) (name : Name) (n : Nat) : Bool :=
  (if d.head.casesense then decide (d.head.name = name)
   else decide (d.head.name.map lower = name.map lower)) &&
  decide (d.head.min ≤ n) && (d.head.plus || decide ((n : Int) ≤ d.head.max))

/-- The macro called at one of the given places: at the first place that names a macro that takes
    the parameters, the newest such macro, if it is not being expanded already. -/
def called (e : Env S) : List (Call S.Line S.Param) → Option (Call S.Line S.Param × SDef S)
  | [] => none
  | c :: cs =>
    match e.defs.find? (fun d => answers d c.name c.params.length) with
    | some d => if d.num ∈ e.busy then called e cs else some (c, d)
    | none => called e cs

/-- The lines of a call: the label, then the body, with the label filled in where the body asks
    for it.  (It has a meaning if the lines are still what their places say.) -/
def bodyOf (c : Call S.Line S.Param) (d : SDef S) : Block S.Line :=
  (c.pre d.body.lines).foldr Block.text (d.body.map c.fill)

/-- The state in which the lines of a call are read. -/
def inside (e : Env S) (c : Call S.Line S.Param) (d : SDef S) : Env S :=
  { e with
    busy := d.num :: e.busy
    frame := some ⟨cutParams S d.head c.params, 0, e.unique⟩
    unique := e.unique + 1 }

/-- What comes out of a block, the state after it and whether it was left by `%exitrep`; `none` if
    it has no meaning, or the depth `n` does not suffice.  `loop` is a block repeated. -/
def exec : Nat → Block S.Line → Env S → Option (List (Event S) × Env S × Bool)
  | 0, _, _ => none
  | _ + 1, .nil, e => some ([], e, false)
  | n + 1, .text l k, e =>
    if (S.word (S.subst e.frame l)).isSome then none
    else
      let t := S.smac e.user (S.subst e.frame l)
      match called e (S.calls t) with
      | none =>
        match exec n k e with
        | none => none
        | some (es, e', ex) => some (.text e.user t :: es, e', ex)
      | some (c, d) =>
        if (bodyOf c d).ok S false false then
          match exec n (bodyOf c d) (inside e c d) with
          | some (es, e', false) =>
            match exec n k { e' with frame := e.frame, busy := e.busy } with
            | none => none
            | some (es', e'', ex) => some (es ++ es', e'', ex)
          | _ => none
        else none
  | n + 1, .plain l k, e => exec n k { e with user := S.act e.user (S.subst e.frame l) }
  | n + 1, .rotate l k, e =>
    match S.turn e.user (S.subst e.frame l), e.frame with
    | some i, some f =>
      if f.params.length = 0 then none
      else exec n k { e with frame := some { f with rotate := (f.rotate + i) % f.params.length } }
    | _, _ => none
  | _ + 1, .exitrep _ k, e => if k.quiet e then some ([], e, true) else none
  | n + 1, .macro l b _ k, e =>
    match S.header e.user (S.subst e.frame l) with
    | none => none
    | some h => exec n k { e with defs := ⟨e.nextDef, h, b⟩ :: e.defs, nextDef := e.nextDef + 1 }
  | n + 1, .rep l b _ k, e =>
    match S.count e.user (S.subst e.frame l) with
    | none => none
    | some c =>
      if -2147483648 ≤ c ∧ c < 2147483647 then
        match loop n c.toNat b e with
        | none => none
        | some (es, e') =>
          match exec n k e' with
          | none => none
          | some (es', e'', ex) => some (es ++ es', e'', ex)
      else none
  | n + 1, .cond l b arms k, e =>
    match pick e l b arms with
    | none => none
    | some br =>
      match exec n br e with
      | none => none
      | some (es, e', true) => if k.quiet e' then some (es, e', true) else none
      | some (es, e', false) =>
        match exec n k e' with
        | none => none
        | some (es', e'', ex) => some (es ++ es', e'', ex)
where
  loop : Nat → Nat → Block S.Line → Env S → Option (List (Event S) × Env S)
    | 0, _, _, _ => none
    | _ + 1, 0, _, e => some ([], e)
    | n + 1, c + 1, b, e =>
      match exec n b e with
      | none => none
      | some (es, e', true) => some (es, e')
      | some (es, e', false) =>
        match loop n c b e' with
        | none => none
        | some (es', e'') => some (es ++ es', e'')

/-- The state at the beginning of a file. -/
def Env.start (u : S.User) : Env S :=
  { user := u, defs := [], nextDef := 0, busy := [], frame := none, unique := 0 }

end Verif.Pp
