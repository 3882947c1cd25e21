import Verif.Inttree.Lemmas
/-
Model of `IT_delete_node` (inttree.c:576-725) and its invariants.
-/
set_option linter.unusedSimpArgs false
namespace Verif.Inttree

/-- What the end of one round of `DeleteFixUp` leaves: go on at the parent, or stop. -/
inductive Round where
  | up (p : Tree)
  | stop (t : Tree)

/-- inttree.c:591-606 and 615-630: one round at x once its sibling w is black.  The result is the subtree at
    the parent.  None: w is the nil sentinel. -/
def balance (x : Tree) (f : Frame) : Option Round :=
  match f.sib with
  | .nil => none
  | .node wr wl wiv wm wrr =>
    if wrr.red = false ∧ wl.red = false then
      some (.up ({ f with sib := .node true wl wiv wm wrr }.plug x))
    else if f.left then
      -- 595-606
      (if wrr.red = false then rightRotate (.node true (wl.setRed false) wiv wm wrr) else some (.node wr wl wiv wm wrr)).bind
        fun w => match w with
        | .nil => none
        | .node _ wl wiv wm wrr =>
          (leftRotate (.node false x f.iv f.maxHigh (.node f.red wl wiv wm (wrr.setRed false)))).map .stop
    else
      -- 619-630
      (if wl.red = false then leftRotate (.node true wl wiv wm (wrr.setRed false)) else some (.node wr wl wiv wm wrr)).bind
        fun w => match w with
        | .nil => none
        | .node _ wl wiv wm wrr =>
          (rightRotate (.node false (.node f.red (wl.setRed false) wiv wm wrr) f.iv f.maxHigh x)).map .stop

/-- inttree.c:585-590 and 609-614: the sibling w is red: rotate the parent.  The result is the frames of the
    parent and of w, which is now above it. -/
def redSibling (x : Tree) (f : Frame) : Option (Frame × Frame) :=
  match f.sib with
  | .nil => none
  | .node _ wl wiv _ wrr =>
    if f.left then
      let pm := itMax x.maxHigh (itMax wl.maxHigh f.iv.high)
      some (⟨true, true, f.iv, pm, wl⟩, ⟨true, false, wiv, itMax pm (itMax wrr.maxHigh wiv.high), wrr⟩)
    else
      let pm := itMax wrr.maxHigh (itMax x.maxHigh f.iv.high)
      some (⟨false, true, f.iv, pm, wrr⟩, ⟨false, false, wiv, itMax wl.maxHigh (itMax pm wiv.high), wl⟩)

/-- inttree.c:605,629,633: the round that stops sets x to the node that was the root at the start, and
    that node is made black.  If the parent was that node it is black already; if not, it is still the root
    (or the root is w, made black at 586). -/
def finish (fs : List Frame) (t : Tree) : Tree := if fs.isEmpty then t else (plug fs t).setRed false

/-- inttree.c:576-642 `DeleteFixUp`.  After the rotation of a red sibling the parent is red, so that going up
    to it ends the loop, and it becomes black. -/
def deleteFixUp (x : Tree) : List Frame → Option Tree
  | [] => some (x.setRed false)
  | f :: fs =>
    if x.red then some (plug (f :: fs) (x.setRed false))
    else if f.sib.red then
      (redSibling x f).bind fun r =>
      (balance x r.1).bind fun
        | .up p => some (plug (r.2 :: fs) (p.setRed false))
        | .stop t => some (finish (r.2 :: fs) t)
    else
      (balance x f).bind fun
        | .up p => deleteFixUp p fs
        | .stop t => some (finish fs t)

/-- inttree.c:393-394: the way down to the leftmost node: its colour, interval and right child, and the frames. -/
def leftmost : Tree → List Frame → Option (Bool × Iv × Tree × List Frame)
  | .nil, _ => none
  | .node red .nil iv _ r, path => some (red, iv, r, path)
  | .node red l iv m r, path => leftmost l (⟨true, red, iv, m, r⟩ :: path)

/-- inttree.c:661-725 `IT_delete_node` of the node with the fields given, below the frames: the new tree.
    The node y spliced out is the node itself or its successor, which takes its place and colour. -/
def delete (zred : Bool) (zl : Tree) (zr : Tree) (path : List Frame) : Option Tree :=
  match zl, zr with
  | .nil, x | x, .nil =>
    let path := fixUpMaxHigh x.maxHigh path
    if zred then some (plug path x) else deleteFixUp x path
  | zl, zr =>
    (leftmost zr []).bind fun (yred, yiv, x, down) =>
      let path := fixUpMaxHigh x.maxHigh (down ++ ⟨false, zred, yiv, -2147483648, zl⟩ :: path)
      if yred then some (plug path x) else deleteFixUp x path

/-! Order -/

theorem balance_inorder (x : Tree) (f : Frame) : ∀ r, balance x f = some r →
    (match r with | .up p => p.inorder | .stop t => t.inorder) = (f.plug x).inorder := by
  intro r h
  obtain ⟨fl, fr, fiv, fm, fs⟩ := f
  unfold balance at h
  split at h
  · simp at h
  · rename_i wr wl wiv wm wrr hs
    simp only at hs; subst hs
    split at h
    · simp only [Option.some.injEq] at h; subst h
      simp only [Frame.plug_inorder]; rfl
    · split at h
      · rename_i hl
        simp only at hl; subst hl
        split at h
        · cases hw : rightRotate (.node true (wl.setRed false) wiv wm wrr) with
          | none => rw [hw] at h; simp at h
          | some w =>
            rw [hw] at h
            simp only [Option.bind_some] at h
            have hwi := rightRotate_inorder hw
            cases w with
            | nil => simp at h
            | node a b c d e =>
              simp only [leftRotate, Option.map_some, Option.some.injEq] at h
              subst h
              simp only [Tree.inorder, setRed_inorder] at hwi
              simp [Frame.plug_inorder, Tree.inorder, hwi]
        · simp only [leftRotate, Option.map_some, Option.bind_some, Option.some.injEq] at h
          subst h
          simp [Frame.plug_inorder, Tree.inorder]
      · rename_i hl
        simp only [Bool.not_eq_true] at hl; subst hl
        split at h
        · cases hw : leftRotate (.node true wl wiv wm (wrr.setRed false)) with
          | none => rw [hw] at h; simp at h
          | some w =>
            rw [hw] at h
            simp only [Option.bind_some] at h
            have hwi := leftRotate_inorder hw
            cases w with
            | nil => simp at h
            | node a b c d e =>
              simp only [rightRotate, Option.map_some, Option.some.injEq] at h
              subst h
              simp only [Tree.inorder, setRed_inorder] at hwi
              simp [Frame.plug_inorder, Tree.inorder]
              have := congrArg (· ++ fiv :: x.inorder) hwi
              simpa using this
        · simp only [rightRotate, Option.map_some, Option.bind_some, Option.some.injEq] at h
          subst h
          simp [Frame.plug_inorder, Tree.inorder]

theorem redSibling_around (x : Tree) (f : Frame) (r : Frame × Frame) (h : redSibling x f = some r) (fs : List Frame)
    (l : List Iv) : around (r.1 :: r.2 :: fs) l = around (f :: fs) l := by
  obtain ⟨fl, fr, fiv, fm, fsib⟩ := f
  unfold redSibling at h
  split at h
  · simp at h
  · rename_i hs
    simp only at hs; subst hs
    cases fl with
    | true =>
      simp only [if_true, Option.some.injEq] at h; subst h
      simp [around, Tree.inorder]
    | false =>
      simp only [Bool.false_eq_true, if_false, Option.some.injEq] at h; subst h
      simp [around, Tree.inorder]

theorem finish_inorder (fs : List Frame) (t : Tree) : (finish fs t).inorder = around fs t.inorder := by
  unfold finish
  split
  · rename_i h; rw [List.isEmpty_iff.1 h]; rfl
  · rw [setRed_inorder, plug_inorder]

theorem deleteFixUp_inorder (x : Tree) (path : List Frame) (t : Tree) (h : deleteFixUp x path = some t) :
    t.inorder = around path x.inorder := by
  induction path generalizing x with
  | nil => simp only [deleteFixUp, Option.some.injEq] at h; subst h; simp [around]
  | cons f fs ih =>
    simp only [deleteFixUp] at h
    split at h
    · simp only [Option.some.injEq] at h; subst h
      rw [plug_inorder, setRed_inorder]
    · split at h
      · cases hr : redSibling x f with
        | none => rw [hr] at h; simp at h
        | some r =>
          rw [hr] at h
          simp only [Option.bind_some] at h
          have har := redSibling_around x f r hr fs x.inorder
          cases hb : balance x r.1 with
          | none => rw [hb] at h; simp at h
          | some b =>
            rw [hb] at h
            have hbi := balance_inorder x r.1 b hb
            rw [Frame.plug_inorder] at hbi
            rw [← har]
            cases b with
            | up p =>
              simp only [Option.bind_some, Option.some.injEq] at h; subst h
              rw [plug_inorder, setRed_inorder]
              simp only at hbi
              rw [hbi]; conv => rhs; rw [around]
            | stop t =>
              simp only [Option.bind_some, Option.some.injEq] at h; subst h
              rw [finish_inorder]
              simp only at hbi
              rw [hbi]; conv => rhs; rw [around]
      · cases hb : balance x f with
        | none => rw [hb] at h; simp at h
        | some b =>
          rw [hb] at h
          have hbi := balance_inorder x f b hb
          rw [Frame.plug_inorder] at hbi
          cases b with
          | up p =>
            simp only [Option.bind_some] at h
            rw [ih p h]
            simp only at hbi
            rw [hbi]; conv => rhs; rw [around]
          | stop t =>
            simp only [Option.bind_some, Option.some.injEq] at h; subst h
            rw [finish_inorder]
            simp only at hbi
            rw [hbi]; conv => rhs; rw [around]

theorem around_append (a b : List Frame) (l : List Iv) : around (a ++ b) l = around b (around a l) := by
  induction a generalizing l with
  | nil => rfl
  | cons f fs ih => simp [around, ih]

theorem leftmost_around (t : Tree) (path : List Frame) (r : Bool × Iv × Tree × List Frame) (h : leftmost t path = some r) :
    ∃ post, t.inorder = r.2.1 :: post ∧ around r.2.2.2 r.2.2.1.inorder = around path post := by
  induction t generalizing path with
  | nil => simp [leftmost] at h
  | node red l iv m rr ihl ihr =>
    cases l with
    | nil =>
      simp only [leftmost, Option.some.injEq] at h; subst h
      exact ⟨rr.inorder, by simp [Tree.inorder], rfl⟩
    | node a b c d e =>
      simp only [leftmost] at h
      obtain ⟨post, h1, h2⟩ := ihl _ h
      refine ⟨post ++ iv :: rr.inorder, ?_, ?_⟩
      · simp only [Tree.inorder] at h1 ⊢; rw [h1]; simp
      · rw [h2]; simp [around]

theorem delete_inorder (zred : Bool) (zl zr : Tree) (path : List Frame) (t : Tree) (h : delete zred zl zr path = some t) :
    t.inorder = around path (zl.inorder ++ zr.inorder) := by
  have leaf : ∀ (x : Tree) (path : List Frame) (red : Bool),
      (if red then some (plug (fixUpMaxHigh x.maxHigh path) x) else deleteFixUp x (fixUpMaxHigh x.maxHigh path)) = some t →
      t.inorder = around path x.inorder := by
    intro x path red h
    split at h
    · simp only [Option.some.injEq] at h; subst h; rw [plug_inorder, fixUpMaxHigh_around]
    · rw [deleteFixUp_inorder _ _ _ h, fixUpMaxHigh_around]
  unfold delete at h
  split at h
  · simpa [Tree.inorder] using leaf _ _ _ h
  · simpa [Tree.inorder] using leaf _ _ _ h
  · rename_i h1 h2
    cases hl : leftmost zr [] with
    | none => rw [hl] at h; simp at h
    | some r =>
      obtain ⟨yred, yiv, x, down⟩ := r
      rw [hl] at h
      simp only [Option.bind_some] at h
      obtain ⟨post, g1, g2⟩ := leftmost_around zr [] _ hl
      simp only [around] at g1 g2
      have := leaf _ _ _ h
      rw [this, around_append, g2, g1]
      simp [around]

/-! Colours -/

theorem balance_rb (x : Tree) (f : Frame) (n : Nat) (hx : Rb x n) (hxr : x.red = false) (hw : Rb f.sib (n + 1))
    (hwr : f.sib.red = false) : ∃ r, balance x f = some r ∧
      match r with
      | .up p => if f.red then p.red = true ∧ Rb (p.setRed false) (n + 1) else p.red = false ∧ Rb p (n + 1)
      | .stop t => Rb t (if f.red then n + 1 else n + 2) ∧ (t.red = true → f.red = true) := by
  obtain ⟨fl, fr, fiv, fm, w⟩ := f
  cases w with
  | nil => simp [Rb] at hw
  | node wr wl wiv wm wrr =>
    simp only [Tree.red] at hwr; subst hwr
    obtain ⟨w1, w2⟩ := hw
    unfold balance
    simp only
    by_cases h2 : wrr.red = false ∧ wl.red = false
    · rw [if_pos h2]
      refine ⟨_, rfl, ?_⟩
      simp only
      have r1 := h2.1
      have r2 := h2.2
      cases fr <;> cases fl <;> simp [Frame.plug, Tree.setRed, Rb, hx, w1, w2] <;>
        first | rfl | exact ⟨rfl, r2, r1⟩ | exact ⟨rfl, r1, r2⟩ | exact ⟨r2, r1⟩
    · rw [if_neg h2]
      cases fl with
      | true =>
        simp only [if_true]
        cases hwrr : wrr.red with
        | false =>
          have hwl : wl.red = true := by
            cases hh : wl.red with
            | true => rfl
            | false => exact absurd ⟨hwrr, hh⟩ h2
          cases wl with
          | nil => simp [Tree.red] at hwl
          | node a b c d e =>
            simp only [Tree.red] at hwl; subst hwl
            obtain ⟨b1, b2, b3, b4⟩ := w1
            simp only [if_true, Tree.setRed, rightRotate, Option.bind_some, leftRotate, Option.map_some]
            refine ⟨_, rfl, ?_⟩
            simp only
            cases fr <;> simp [Tree.red, Rb, hx, hxr, b1, b2, b3, b4, w2, hwrr]
        | true =>
          cases wrr with
          | nil => simp [Tree.red] at hwrr
          | node a b c d e =>
            simp only [Tree.red] at hwrr; subst hwrr
            obtain ⟨b1, b2, b3, b4⟩ := w2
            simp only [Bool.true_eq_false, if_false, Tree.setRed, Option.bind_some, leftRotate, Option.map_some]
            refine ⟨_, rfl, ?_⟩
            simp only
            cases fr <;> simp [Tree.red, Rb, hx, hxr, b1, b2, b3, b4, w1]
      | false =>
        simp only [Bool.false_eq_true, if_false]
        cases hwl : wl.red with
        | false =>
          have hwrr : wrr.red = true := by
            cases hh : wrr.red with
            | true => rfl
            | false => exact absurd ⟨hh, hwl⟩ h2
          cases wrr with
          | nil => simp [Tree.red] at hwrr
          | node a b c d e =>
            simp only [Tree.red] at hwrr; subst hwrr
            obtain ⟨b1, b2, b3, b4⟩ := w2
            simp only [if_true, Tree.setRed, leftRotate, Option.bind_some, rightRotate, Option.map_some]
            refine ⟨_, rfl, ?_⟩
            simp only
            cases fr <;> simp [Tree.red, Rb, hx, hxr, b1, b2, b3, b4, w1, hwl]
        | true =>
          cases wl with
          | nil => simp [Tree.red] at hwl
          | node a b c d e =>
            simp only [Tree.red] at hwl; subst hwl
            obtain ⟨b1, b2, b3, b4⟩ := w1
            simp only [Bool.true_eq_false, if_false, Tree.setRed, Option.bind_some, rightRotate, Option.map_some]
            refine ⟨_, rfl, ?_⟩
            simp only
            cases fr <;> simp [Tree.red, Rb, hx, hxr, b1, b2, b3, b4, w2]

theorem plug_root_red (fs : List Frame) (t : Tree) : (plug fs t).red = (match fs.getLast? with | none => t.red | some f => f.red) := by
  induction fs generalizing t with
  | nil => rfl
  | cons f fs ih =>
    simp only [plug, ih]
    cases fs with
    | nil => simp [Frame.plug]; split <;> rfl
    | cons g gs =>
      have : (f :: g :: gs).getLast? = (g :: gs).getLast? := by simp [List.getLast?_cons]
      rw [this]
      cases h : (g :: gs).getLast? with
      | none => simp at h
      | some u => rfl

theorem pathRb_root (fs : List Frame) (n : Nat) (h : PathRb fs n) : ∀ f, fs.getLast? = some f → f.red = false := by
  induction fs generalizing n with
  | nil => simp
  | cons f fs ih =>
    obtain ⟨h1, h2, h3⟩ := h
    intro g hg
    cases fs with
    | nil =>
      simp only [List.getLast?_singleton, Option.some.injEq] at hg; subst hg
      cases hr : f.red with
      | false => rfl
      | true => have := (h2 hr).2.2; simp at this
    | cons a b =>
      have e : (f :: a :: b).getLast? = (a :: b).getLast? := by simp [List.getLast?_cons]
      rw [e] at hg
      exact ih _ h3 g hg

theorem finish_rb (fs : List Frame) (n : Nat) (t : Tree) (hp : PathRb fs n) (ht : Rb t n)
    (hr : t.red = true → headRed fs = false ∧ fs ≠ []) : ∃ m, Rb (finish fs t) m ∧ (finish fs t).red = false := by
  obtain ⟨m, hm⟩ := plug_rb fs n t hp ht (fun h => (hr h).1)
  unfold finish
  split
  · rename_i he
    have := List.isEmpty_iff.1 he; subst this
    refine ⟨n, ht, ?_⟩
    cases hh : t.red with
    | false => rfl
    | true => exact absurd rfl (hr hh).2
  · obtain ⟨m', h'⟩ := setRed_false_rb hm
    exact ⟨m', h', setRed_false_red _⟩

theorem deleteFixUp_rb (x : Tree) (path : List Frame) (n : Nat) (hp : PathRb path (n + 1))
    (hx : (x.red = true ∧ Rb (x.setRed false) (n + 1)) ∨ (x.red = false ∧ Rb x n)) :
    ∃ t m, deleteFixUp x path = some t ∧ Rb t m ∧ t.red = false := by
  induction path generalizing x n with
  | nil =>
    refine ⟨x.setRed false, ?_⟩
    rcases hx with ⟨_, h⟩ | ⟨h1, h⟩
    · exact ⟨n + 1, rfl, h, setRed_false_red x⟩
    · obtain ⟨m, hm⟩ := setRed_false_rb h
      exact ⟨m, rfl, hm, setRed_false_red x⟩
  | cons f fs ih =>
    simp only [deleteFixUp]
    rcases hx with ⟨hxr, hxb⟩ | ⟨hxr, hxn⟩
    · simp only [hxr, if_true]
      obtain ⟨m, hm⟩ := plug_rb (f :: fs) (n + 1) _ hp hxb (by simp [setRed_false_red])
      refine ⟨_, m, rfl, hm, ?_⟩
      rw [plug_root_red]
      cases hl : (f :: fs).getLast? with
      | none => simp at hl
      | some g => exact pathRb_root _ _ hp g hl
    · simp only [hxr, Bool.false_eq_true, if_false]
      obtain ⟨p1, p2, p3⟩ := hp
      cases hsr : f.sib.red with
      | true =>
        simp only [if_true]
        -- the parent is black
        have hfr : f.red = false := by
          cases hh : f.red with
          | false => rfl
          | true => have := (p2 hh).1; rw [hsr] at this; simp at this
        rw [hfr] at p3
        simp only [Bool.false_eq_true, if_false] at p3
        obtain ⟨fl, fr, fiv, fm, w⟩ := f
        simp only at hfr hsr p1; subst hfr
        cases w with
        | nil => simp [Tree.red] at hsr
        | node wr wl wiv wm wrr =>
          simp only [Tree.red] at hsr; subst hsr
          obtain ⟨w1, w2, w3, w4⟩ := p1
          have hroot : ∀ (g : Frame), g.red = false → ∀ (u : Tree), (plug (g :: fs) u).red = false := by
            intro g hg u
            rw [plug_root_red]
            cases fs with
            | nil => simp [hg]
            | cons a b =>
              have e : (g :: a :: b).getLast? = (a :: b).getLast? := by simp [List.getLast?_cons]
              rw [e]
              cases hl : (a :: b).getLast? with
              | none => simp at hl
              | some v => exact pathRb_root _ _ p3 v hl
          -- both sides alike: the frames f' (red) and g (black)
          have both : ∀ (f' g : Frame), f'.red = true → g.red = false → Rb f'.sib (n + 1) → f'.sib.red = false →
              Rb g.sib (n + 1) → ∃ t m, ((balance x f').bind fun
                | .up p => some (plug (g :: fs) (p.setRed false))
                | .stop t => some (finish (g :: fs) t)) = some t ∧ Rb t m ∧ t.red = false := by
            intro f' g hf' hg hs1 hs2 hs3
            have hpg : PathRb (g :: fs) (n + 1) := ⟨hs3, by simp [hg], by simpa [hg] using p3⟩
            obtain ⟨r, hr1, hr2⟩ := balance_rb x f' n hxn hxr hs1 hs2
            rw [hr1]
            cases r with
            | up p =>
              simp only [hf', if_true] at hr2
              obtain ⟨m, hm⟩ := plug_rb (g :: fs) (n + 1) _ hpg hr2.2 (by simp [setRed_false_red])
              exact ⟨_, m, rfl, hm, hroot g hg _⟩
            | stop t =>
              simp only [hf', if_true] at hr2
              obtain ⟨m, hm1, hm2⟩ := finish_rb (g :: fs) (n + 1) t hpg hr2.1 (fun _ => ⟨hg, by simp⟩)
              exact ⟨_, m, rfl, hm1, hm2⟩
          unfold redSibling
          cases fl with
          | true =>
            simp only [if_true, Option.bind_some]
            exact both _ _ rfl rfl w3 w1 w4
          | false =>
            simp only [Bool.false_eq_true, if_false, Option.bind_some]
            exact both _ _ rfl rfl w4 w2 w3
      | false =>
        simp only [Bool.false_eq_true, if_false]
        obtain ⟨r, hr1, hr2⟩ := balance_rb x f n hxn hxr p1 hsr
        rw [hr1]
        cases r with
        | up p =>
          simp only [Option.bind_some]
          cases hfr : f.red with
          | true =>
            rw [hfr] at p3 hr2
            simp only [if_true] at p3 hr2
            exact ih p n p3 (Or.inl hr2)
          | false =>
            rw [hfr] at p3 hr2
            simp only [Bool.false_eq_true, if_false] at p3 hr2
            exact ih p (n + 1) p3 (Or.inr hr2)
        | stop t =>
          simp only [Option.bind_some]
          simp only at hr2
          cases hfr : f.red with
          | true =>
            rw [hfr] at p3 hr2
            simp only [if_true] at p3 hr2
            obtain ⟨m, hm1, hm2⟩ := finish_rb fs (n + 1) t p3 hr2.1 (fun _ => (p2 hfr).2)
            exact ⟨_, m, rfl, hm1, hm2⟩
          | false =>
            rw [hfr] at p3 hr2
            simp only [Bool.false_eq_true, if_false] at p3 hr2
            obtain ⟨m, hm1, hm2⟩ := finish_rb fs (n + 2) t p3 hr2.1 (fun h => by simpa using hr2.2 h)
            exact ⟨_, m, rfl, hm1, hm2⟩

/-- The frames of a valid tree are all right. -/
theorem plug_rb_inv (path : List Frame) (x : Tree) (m : Nat) (h : Rb (plug path x) m) (hr : (plug path x).red = false) :
    ∃ n, Rb x n ∧ PathRb path n ∧ (x.red = true → headRed path = false ∧ path ≠ []) := by
  induction path generalizing x with
  | nil => exact ⟨m, h, trivial, fun hx => by simp only [plug] at hr; rw [hr] at hx; simp at hx⟩
  | cons f fs ih =>
    obtain ⟨n, h1, h2, h3⟩ := ih _ h hr
    obtain ⟨fl, fr, fiv, fm, fsib⟩ := f
    cases fr with
    | true =>
      have hpr : (Frame.plug ⟨fl, true, fiv, fm, fsib⟩ x).red = true := by cases fl <;> rfl
      obtain ⟨h4, h5⟩ := h3 hpr
      cases fl with
      | true =>
        obtain ⟨a, b, c, d⟩ := h1
        exact ⟨n, c, ⟨d, fun _ => ⟨b, h4, h5⟩, by simpa using h2⟩, fun hx => by rw [a] at hx; simp at hx⟩
      | false =>
        obtain ⟨a, b, c, d⟩ := h1
        exact ⟨n, d, ⟨c, fun _ => ⟨a, h4, h5⟩, by simpa using h2⟩, fun hx => by rw [b] at hx; simp at hx⟩
    | false =>
      cases n with
      | zero => cases fl <;> simp [Frame.plug, Rb] at h1
      | succ n =>
        cases fl with
        | true =>
          obtain ⟨c, d⟩ := h1
          exact ⟨n, c, ⟨d, by simp, by simpa using h2⟩, fun _ => ⟨rfl, by simp⟩⟩
        | false =>
          obtain ⟨c, d⟩ := h1
          exact ⟨n, d, ⟨c, by simp, by simpa using h2⟩, fun _ => ⟨rfl, by simp⟩⟩

theorem leftmost_plug (t : Tree) (path : List Frame) (hn : t ≠ .nil) :
    ∃ yred yiv ym x down, leftmost t path = some (yred, yiv, x, down ++ path) ∧
      ∀ up, plug (down ++ up) (.node yred .nil yiv ym x) = plug up t := by
  induction t generalizing path with
  | nil => simp at hn
  | node red l iv m r ihl ihr =>
    cases l with
    | nil => exact ⟨red, iv, m, r, [], rfl, fun _ => rfl⟩
    | node a b c d e =>
      obtain ⟨yred, yiv, ym, x, down, h1, h2⟩ := ihl (⟨true, red, iv, m, r⟩ :: path) (by simp)
      refine ⟨yred, yiv, ym, x, down ++ [⟨true, red, iv, m, r⟩], by simp [leftmost, h1], ?_⟩
      intro up
      rw [List.append_assoc, h2]
      rfl

/-- Only colours and siblings matter. -/
theorem pathRb_key (down path : List Frame) (f g : Frame) (h1 : f.red = g.red) (h2 : f.sib = g.sib) (n : Nat)
    (h : PathRb (down ++ f :: path) n) : PathRb (down ++ g :: path) n := by
  induction down generalizing n with
  | nil => simpa only [List.nil_append, PathRb, h1, h2] using h
  | cons d ds ih =>
    obtain ⟨a, b, c⟩ := h
    refine ⟨a, ?_, ih _ c⟩
    intro hr
    obtain ⟨b1, b2, b3⟩ := b hr
    refine ⟨b1, ?_, by simp⟩
    cases ds with
    | nil => simpa [headRed, h1] using b2
    | cons u v => exact b2

theorem splice_rb (yred : Bool) (x : Tree) (path : List Frame) (n : Nat)
    (hp : PathRb path (if yred then n else n + 1)) (hx : Rb x n)
    (hxr : yred = true → x.red = false) (hroot : yred = true → path ≠ []) :
    ∃ t m, (if yred then some (plug (fixUpMaxHigh x.maxHigh path) x) else deleteFixUp x (fixUpMaxHigh x.maxHigh path)) = some t ∧
      Rb t m ∧ t.red = false := by
  have hp' := fixUpMaxHigh_rb x.maxHigh path _ hp
  cases yred with
  | true =>
    simp only [if_true] at hp' ⊢
    obtain ⟨m, hm⟩ := plug_rb _ n x hp' hx (by simp [hxr rfl])
    refine ⟨_, m, rfl, hm, ?_⟩
    rw [plug_root_red]
    cases hl : (fixUpMaxHigh x.maxHigh path).getLast? with
    | none =>
      exfalso
      rw [List.getLast?_eq_none_iff] at hl
      cases path with
      | nil => exact hroot rfl rfl
      | cons a b => simp [fixUpMaxHigh] at hl
    | some g => exact pathRb_root _ _ hp' g hl
  | false =>
    simp only [Bool.false_eq_true, if_false] at hp' ⊢
    apply deleteFixUp_rb x _ n hp'
    cases hr : x.red with
    | true => exact Or.inl ⟨rfl, rb_red_black hx hr⟩
    | false => exact Or.inr ⟨rfl, hx⟩

theorem delete_rb (zred : Bool) (zl : Tree) (ziv : Iv) (zm : Int) (zr : Tree) (path : List Frame) (m : Nat)
    (h : Rb (plug path (.node zred zl ziv zm zr)) m) (hr : (plug path (.node zred zl ziv zm zr)).red = false) :
    ∃ t m, delete zred zl zr path = some t ∧ Rb t m ∧ t.red = false := by
  have leaf : ∀ x, (∃ n, Rb x n ∧ PathRb path (if zred then n else n + 1)) → (zred = true → x.red = false) →
      ∃ t m, (if zred then some (plug (fixUpMaxHigh x.maxHigh path) x) else deleteFixUp x (fixUpMaxHigh x.maxHigh path)) = some t ∧
      Rb t m ∧ t.red = false := by
    intro x ⟨n, hx, hp⟩ hc
    refine splice_rb zred x path n hp hx hc ?_
    intro hz hn
    subst hn hz
    simp [plug, Tree.red] at hr
  have kids : ∃ n, Rb zl n ∧ Rb zr n ∧ PathRb path (if zred then n else n + 1) ∧
      (zred = true → zl.red = false ∧ zr.red = false) := by
    obtain ⟨n, h1, h2, _⟩ := plug_rb_inv path _ m h hr
    cases zred with
    | true => obtain ⟨a, b, c, d⟩ := h1; exact ⟨n, c, d, h2, fun _ => ⟨a, b⟩⟩
    | false =>
      cases n with
      | zero => simp [Rb] at h1
      | succ n => obtain ⟨a, b⟩ := h1; exact ⟨n, a, b, h2, by simp⟩
  obtain ⟨n, k1, k2, k3, k4⟩ := kids
  unfold delete
  split
  · exact leaf _ ⟨n, k2, k3⟩ (fun hz => (k4 hz).2)
  · exact leaf _ ⟨n, k1, k3⟩ (fun hz => (k4 hz).1)
  · rename_i hn1 hn2
    obtain ⟨yred, yiv, ym, x, down, l1, l2⟩ := leftmost_plug zr [] (fun he => hn2 he)
    rw [l1]
    simp only [List.append_nil, Option.bind_some]
    have hpl := l2 (⟨false, zred, ziv, zm, zl⟩ :: path)
    have e : plug (⟨false, zred, ziv, zm, zl⟩ :: path) zr = plug path (.node zred zl ziv zm zr) := rfl
    rw [e] at hpl
    obtain ⟨k, h1, h2, h3⟩ := plug_rb_inv _ _ m (hpl.symm ▸ h) (hpl.symm ▸ hr)
    have h2' := pathRb_key down path ⟨false, zred, ziv, zm, zl⟩ ⟨false, zred, yiv, -2147483648, zl⟩ rfl rfl _ h2
    cases yred with
    | true =>
      obtain ⟨a, b, c, d⟩ := h1
      exact splice_rb true x _ k h2' d (fun _ => b) (fun _ => by simp)
    | false =>
      cases k with
      | zero => simp [Rb] at h1
      | succ k =>
        obtain ⟨a, b⟩ := h1
        exact splice_rb false x _ k h2' b (by simp) (by simp)

/-! Maxima -/

theorem balance_max (x : Tree) (f : Frame) (hx : MaxOk x) (hs : MaxOk f.sib)
    (hm : f.maxHigh = max f.iv.high (max x.maxHigh f.sib.maxHigh)) : ∀ r, balance x f = some r →
    match r with
    | .up p => MaxOk p ∧ p.maxHigh = f.maxHigh
    | .stop t => MaxOk t ∧ t.maxHigh = f.maxHigh := by
  intro r h
  obtain ⟨fl, fr, fiv, fm, fs⟩ := f
  unfold balance at h
  split at h
  · simp at h
  · rename_i wr wl wiv wm wrr hs'
    simp only at hs' hm hs; subst hs'
    obtain ⟨s1, s2, s3⟩ := hs
    split at h
    · simp only [Option.some.injEq] at h; subst h
      simp only
      have := Frame.plug_maxOk ⟨fl, fr, fiv, fm, .node true wl wiv wm wrr⟩ x hx ⟨s1, s2, s3⟩ hm
      exact this
    · split at h
      · split at h
        · cases hw : rightRotate (.node true (wl.setRed false) wiv wm wrr) with
          | none => rw [hw] at h; simp at h
          | some w =>
            rw [hw] at h
            simp only [Option.bind_some] at h
            obtain ⟨a, b⟩ := rightRotate_max hw ⟨by simpa using s1, setRed_maxOk _ s2, s3⟩
            cases w with
            | nil => simp at h
            | node p q u v z =>
              simp only at h
              obtain ⟨a1, a2, a3⟩ := a
              cases ht : leftRotate (.node false x fiv fm (.node fr q u v (z.setRed false))) with
              | none => rw [ht] at h; simp at h
              | some t =>
                rw [ht] at h
                simp only [Option.map_some, Option.some.injEq] at h; subst h
                refine leftRotate_max ht ⟨?_, hx, by simpa using a1, a2, setRed_maxOk _ a3⟩
                simp only [Tree.maxHigh] at b hm ⊢; omega
        · simp only [Option.bind_some] at h
          cases ht : leftRotate (.node false x fiv fm (.node fr wl wiv wm (wrr.setRed false))) with
          | none => rw [ht] at h; simp at h
          | some t =>
            rw [ht] at h
            simp only [Option.map_some, Option.some.injEq] at h; subst h
            exact leftRotate_max ht ⟨hm, hx, by simpa using s1, s2, setRed_maxOk _ s3⟩
      · split at h
        · cases hw : leftRotate (.node true wl wiv wm (wrr.setRed false)) with
          | none => rw [hw] at h; simp at h
          | some w =>
            rw [hw] at h
            simp only [Option.bind_some] at h
            obtain ⟨a, b⟩ := leftRotate_max hw ⟨by simpa using s1, s2, setRed_maxOk _ s3⟩
            cases w with
            | nil => simp at h
            | node p q u v z =>
              simp only at h
              obtain ⟨a1, a2, a3⟩ := a
              cases ht : rightRotate (.node false (.node fr (q.setRed false) u v z) fiv fm x) with
              | none => rw [ht] at h; simp at h
              | some t =>
                rw [ht] at h
                simp only [Option.map_some, Option.some.injEq] at h; subst h
                refine rightRotate_max ht ⟨?_, ⟨by simpa using a1, setRed_maxOk _ a2, a3⟩, hx⟩
                simp only [Tree.maxHigh] at b hm ⊢; omega
        · simp only [Option.bind_some] at h
          cases ht : rightRotate (.node false (.node fr (wl.setRed false) wiv wm wrr) fiv fm x) with
          | none => rw [ht] at h; simp at h
          | some t =>
            rw [ht] at h
            simp only [Option.map_some, Option.some.injEq] at h; subst h
            refine rightRotate_max ht ⟨?_, ⟨by simpa using s1, setRed_maxOk _ s2, s3⟩, hx⟩
            simp only [Tree.maxHigh] at hm ⊢; omega

theorem finish_max (fs : List Frame) (t : Tree) (hp : PathMax fs t.maxHigh) (ht : MaxOk t) : MaxOk (finish fs t) := by
  unfold finish
  split
  · exact ht
  · exact setRed_maxOk _ (plug_max fs t hp ht)

theorem deleteFixUp_max (x : Tree) (path : List Frame) (t : Tree) (h : deleteFixUp x path = some t) (hx : MaxOk x)
    (hp : PathMax path x.maxHigh) : MaxOk t := by
  induction path generalizing x with
  | nil => simp only [deleteFixUp, Option.some.injEq] at h; subst h; exact setRed_maxOk _ hx
  | cons f fs ih =>
    simp only [deleteFixUp] at h
    split at h
    · simp only [Option.some.injEq] at h; subst h
      exact plug_max _ _ (by simpa using hp) (setRed_maxOk _ hx)
    · obtain ⟨p1, p2, p3⟩ := hp
      split at h
      · cases hr : redSibling x f with
        | none => rw [hr] at h; simp at h
        | some r =>
          rw [hr] at h
          simp only [Option.bind_some] at h
          have hfr : r.1.maxHigh = max r.1.iv.high (max x.maxHigh r.1.sib.maxHigh) ∧ MaxOk r.1.sib ∧
              PathMax (r.2 :: fs) r.1.maxHigh := by
            obtain ⟨fl, fr, fiv, fm, fsib⟩ := f
            unfold redSibling at hr
            split at hr
            · simp at hr
            · rename_i hs
              simp only at hs; subst hs
              obtain ⟨q1, q2, q3⟩ := p2
              have hn : ∀ a b c d e, (Tree.node a b c d e).maxHigh = d := fun _ _ _ _ _ => rfl
              simp only [hn] at p1
              cases fl with
              | true =>
                simp only [if_true, Option.some.injEq] at hr; subst hr
                simp only [itMax_eq]
                refine ⟨by omega, q2, ⟨by simp only; omega, q3, ?_⟩⟩
                simp only at p3 ⊢
                refine Eq.mp (congrArg (PathMax fs) ?_) p3
                omega
              | false =>
                simp only [Bool.false_eq_true, if_false, Option.some.injEq] at hr; subst hr
                simp only [itMax_eq]
                refine ⟨by omega, q3, ⟨by simp only; omega, q2, ?_⟩⟩
                simp only at p3 ⊢
                refine Eq.mp (congrArg (PathMax fs) ?_) p3
                omega
          obtain ⟨f1, f2, f3⟩ := hfr
          cases hb : balance x r.1 with
          | none => rw [hb] at h; simp at h
          | some b =>
            rw [hb] at h
            have hbm := balance_max x r.1 hx f2 f1 b hb
            cases b with
            | up p =>
              simp only [Option.bind_some, Option.some.injEq] at h hbm; subst h
              exact plug_max _ _ (by rw [setRed_maxHigh, hbm.2]; exact f3) (setRed_maxOk _ hbm.1)
            | stop t =>
              simp only [Option.bind_some, Option.some.injEq] at h hbm; subst h
              exact finish_max _ _ (by rw [hbm.2]; exact f3) hbm.1
      · cases hb : balance x f with
        | none => rw [hb] at h; simp at h
        | some b =>
          rw [hb] at h
          have hbm := balance_max x f hx p2 p1 b hb
          cases b with
          | up p =>
            simp only [Option.bind_some] at h hbm
            exact ih p h hbm.1 (by rw [hbm.2]; exact p3)
          | stop t =>
            simp only [Option.bind_some, Option.some.injEq] at h hbm; subst h
            exact finish_max _ _ (by rw [hbm.2]; exact p3) hbm.1

theorem plug_max_inv (path : List Frame) (x : Tree) (h : MaxOk (plug path x)) : MaxOk x ∧ SibMax path := by
  induction path generalizing x with
  | nil => exact ⟨h, by simp [SibMax]⟩
  | cons f fs ih =>
    obtain ⟨h1, h2⟩ := ih _ h
    obtain ⟨fl, fr, fiv, fm, fsib⟩ := f
    cases fl with
    | true =>
      obtain ⟨_, a, b⟩ := h1
      exact ⟨a, by intro g hg; rcases List.mem_cons.1 hg with rfl | hg; exact b; exact h2 g hg⟩
    | false =>
      obtain ⟨_, a, b⟩ := h1
      exact ⟨b, by intro g hg; rcases List.mem_cons.1 hg with rfl | hg; exact a; exact h2 g hg⟩

theorem leftmost_max (t : Tree) (path : List Frame) (ht : MaxOk t) (hp : SibMax path) (r : Bool × Iv × Tree × List Frame)
    (h : leftmost t path = some r) : MaxOk r.2.2.1 ∧ SibMax r.2.2.2 := by
  induction t generalizing path with
  | nil => simp [leftmost] at h
  | node red l iv m rr ihl ihr =>
    obtain ⟨_, h1, h2⟩ := ht
    cases l with
    | nil => simp only [leftmost, Option.some.injEq] at h; subst h; exact ⟨h2, hp⟩
    | node a b c d e =>
      simp only [leftmost] at h
      refine ihl _ h1 ?_ h
      intro g hg
      rcases List.mem_cons.1 hg with rfl | hg
      · exact h2
      · exact hp g hg

theorem delete_max (zred : Bool) (zl : Tree) (ziv : Iv) (zm : Int) (zr : Tree) (path : List Frame) (t : Tree)
    (h : MaxOk (plug path (.node zred zl ziv zm zr))) (hd : delete zred zl zr path = some t) : MaxOk t := by
  obtain ⟨⟨_, h1, h2⟩, h3⟩ := plug_max_inv path _ h
  have leaf : ∀ (x : Tree) (path : List Frame) (red : Bool), MaxOk x → SibMax path →
      (if red then some (plug (fixUpMaxHigh x.maxHigh path) x) else deleteFixUp x (fixUpMaxHigh x.maxHigh path)) = some t →
      MaxOk t := by
    intro x path red hx hp h
    have := fixUpMaxHigh_max x.maxHigh path hp
    split at h
    · simp only [Option.some.injEq] at h; subst h; exact plug_max _ _ this hx
    · exact deleteFixUp_max _ _ _ h hx this
  unfold delete at hd
  split at hd
  · exact leaf _ _ _ h2 h3 hd
  · exact leaf _ _ _ h1 h3 hd
  · cases hl : leftmost zr [] with
    | none => rw [hl] at hd; simp at hd
    | some r =>
      obtain ⟨yred, yiv, x, down⟩ := r
      rw [hl] at hd
      simp only [Option.bind_some] at hd
      obtain ⟨a, b⟩ := leftmost_max zr [] h2 (by simp [SibMax]) _ hl
      refine leaf _ _ _ a ?_ hd
      intro g hg
      rcases List.mem_append.1 hg with hg | hg
      · exact b g hg
      · rcases List.mem_cons.1 hg with rfl | hg
        · exact h1
        · exact h3 g hg

end Verif.Inttree
