import Verif.Inttree.Spec
/- Invariants of the interval tree. -/
set_option linter.unusedSimpArgs false
namespace Verif.Inttree

theorem itMax_eq (a b : Int) : itMax a b = max a b := by unfold itMax; split <;> omega

/-! Order of the intervals -/

/-- The intervals of the whole tree when those of the subtree in hand are l. -/
def around : List Frame → List Iv → List Iv
  | [], l => l
  | f :: fs, l => around fs (if f.left then l ++ f.iv :: f.sib.inorder else f.sib.inorder ++ f.iv :: l)

theorem Frame.plug_inorder (f : Frame) (x : Tree) :
    (f.plug x).inorder = if f.left then x.inorder ++ f.iv :: f.sib.inorder else f.sib.inorder ++ f.iv :: x.inorder := by
  unfold Frame.plug; split <;> rfl

theorem plug_inorder (path : List Frame) (x : Tree) : (plug path x).inorder = around path x.inorder := by
  induction path generalizing x with
  | nil => rfl
  | cons f fs ih => simp only [plug, around, ih, Frame.plug_inorder]

@[simp] theorem setRed_inorder (b : Bool) (t : Tree) : (t.setRed b).inorder = t.inorder := by cases t <;> rfl
@[simp] theorem setRed_maxHigh (b : Bool) (t : Tree) : (t.setRed b).maxHigh = t.maxHigh := by cases t <;> rfl

theorem leftRotate_inorder {t s : Tree} (h : leftRotate t = some s) : s.inorder = t.inorder := by
  unfold leftRotate at h
  split at h
  · simp only [Option.some.injEq] at h; subst h; simp [Tree.inorder]
  · simp at h

theorem rightRotate_inorder {t s : Tree} (h : rightRotate t = some s) : s.inorder = t.inorder := by
  unfold rightRotate at h
  split at h
  · simp only [Option.some.injEq] at h; subst h; simp [Tree.inorder]
  · simp at h

theorem fixUp_inorder (x : Tree) (path : List Frame) (t : Tree) (h : fixUp x path = some t) :
    t.inorder = around path x.inorder := by
  match path with
  | [] => simp only [fixUp, Option.some.injEq] at h; subst h; rfl
  | [p] =>
    simp only [fixUp] at h
    split at h
    · simp at h
    · simp only [Option.some.injEq] at h; subst h; exact plug_inorder [p] x
  | p :: g :: path =>
    simp only [fixUp] at h
    split at h
    · split at h
      · rename_i hg
        split at h
        · rw [fixUp_inorder _ path t h]
          simp [around, Tree.inorder, Frame.plug_inorder, hg]
        · cases hs : innerLeft p x with
          | none => rw [hs] at h; simp at h
          | some s =>
            rw [hs] at h
            have hso : s.inorder = (p.plug x).inorder := by
              unfold innerLeft at hs
              split at hs
              · simp only [Option.some.injEq] at hs; subst hs; rfl
              · exact leftRotate_inorder hs
            simp only [Option.bind_some] at h
            cases ht : rightRotate (.node true (s.setRed false) g.iv g.maxHigh g.sib) with
            | none => rw [ht] at h; simp at h
            | some u =>
              rw [ht] at h
              simp only [Option.bind_some, Option.some.injEq] at h
              subst h
              rw [plug_inorder, rightRotate_inorder ht]
              simp [around, Tree.inorder, hg, hso, Frame.plug_inorder]
      · rename_i hg
        split at h
        · rw [fixUp_inorder _ path t h]
          simp [around, Tree.inorder, Frame.plug_inorder, hg]
        · cases hs : innerRight p x with
          | none => rw [hs] at h; simp at h
          | some s =>
            rw [hs] at h
            have hso : s.inorder = (p.plug x).inorder := by
              unfold innerRight at hs
              split at hs
              · exact rightRotate_inorder hs
              · simp only [Option.some.injEq] at hs; subst hs; rfl
            simp only [Option.bind_some] at h
            cases ht : leftRotate (.node true g.sib g.iv g.maxHigh (s.setRed false)) with
            | none => rw [ht] at h; simp at h
            | some u =>
              rw [ht] at h
              simp only [Option.bind_some, Option.some.injEq] at h
              subst h
              rw [plug_inorder, leftRotate_inorder ht]
              simp [around, Tree.inorder, hg, hso, Frame.plug_inorder]
    · simp only [Option.some.injEq] at h; subst h; exact plug_inorder _ x
termination_by path.length

theorem fixUpMaxHigh_around (m : Int) (path : List Frame) (l : List Iv) :
    around (fixUpMaxHigh m path) l = around path l := by
  induction path generalizing m l with
  | nil => rfl
  | cons f fs ih => simp only [fixUpMaxHigh, around, ih]

theorem descend_around (z : Int) (t : Tree) (path : List Frame) (hs : Sorted t.inorder) :
    ∃ l1 l2, t.inorder = l1 ++ l2 ∧ (∀ i ∈ l1, i.low ≤ z) ∧ (∀ i ∈ l2, z < i.low) ∧
      ∀ l, around (descend z t path) l = around path (l1 ++ l ++ l2) := by
  induction t generalizing path with
  | nil => exact ⟨[], [], rfl, by simp, by simp, fun l => by simp [descend]⟩
  | node red l iv m r ihl ihr =>
    obtain ⟨s1, s2, s3⟩ := List.pairwise_append.1 hs
    obtain ⟨s4, s5⟩ := List.pairwise_cons.1 s2
    simp only [descend]
    split
    · rename_i hlt
      obtain ⟨l1, l2, e, h1, h2, h3⟩ := ihl (⟨true, red, iv, m, r⟩ :: path) s1
      refine ⟨l1, l2 ++ iv :: r.inorder, by simp [Tree.inorder, e], h1, ?_, ?_⟩
      · intro i hi
        rcases List.mem_append.1 hi with hi | hi
        · exact h2 i hi
        · rcases List.mem_cons.1 hi with rfl | hi
          · omega
          · have := s4 i hi; omega
      · intro k
        rw [h3]; simp [around]
    · rename_i hge
      obtain ⟨l1, l2, e, h1, h2, h3⟩ := ihr (⟨false, red, iv, m, l⟩ :: path) s5
      refine ⟨l.inorder ++ iv :: l1, l2, by simp [Tree.inorder, e], ?_, h2, ?_⟩
      · intro i hi
        rcases List.mem_append.1 hi with hi | hi
        · have := s3 i hi iv (by simp); omega
        · rcases List.mem_cons.1 hi with rfl | hi
          · omega
          · exact h1 i hi
      · intro k
        rw [h3]; simp [around]

theorem insert_inorder (t s : Tree) (low high : Int) (data : Nat) (hs : Sorted t.inorder)
    (h : insert t low high data = some s) :
    ∃ l1 l2, t.inorder = l1 ++ l2 ∧ s.inorder = l1 ++ mkIv low high data :: l2 ∧
      (∀ i ∈ l1, i.low ≤ (mkIv low high data).low) ∧ (∀ i ∈ l2, (mkIv low high data).low < i.low) := by
  unfold insert at h
  simp only at h
  cases hf : fixUp (create low high data) (fixUpMaxHigh (create low high data).maxHigh (descend (mkIv low high data).low t [])) with
  | none => rw [hf] at h; simp at h
  | some u =>
    rw [hf] at h
    simp only [Option.map_some, Option.some.injEq] at h
    subst h
    obtain ⟨l1, l2, e, h1, h2, h3⟩ := descend_around (mkIv low high data).low t [] hs
    refine ⟨l1, l2, e, ?_, h1, h2⟩
    rw [setRed_inorder, fixUp_inorder _ _ _ hf, fixUpMaxHigh_around, h3]
    simp [around, create, Tree.inorder]

theorem insert_sorted (t s : Tree) (low high : Int) (data : Nat) (hs : Sorted t.inorder)
    (h : insert t low high data = some s) : Sorted s.inorder := by
  obtain ⟨l1, l2, e1, e2, h1, h2⟩ := insert_inorder t s low high data hs h
  rw [e1] at hs
  rw [e2]
  obtain ⟨a, b, c⟩ := List.pairwise_append.1 hs
  refine List.pairwise_append.2 ⟨a, List.pairwise_cons.2 ⟨fun i hi => ?_, b⟩, ?_⟩
  · have := h2 i hi; omega
  · intro i hi j hj
    rcases List.mem_cons.1 hj with rfl | hj
    · exact h1 i hi
    · exact c i hi j hj

/-! Colours -/

/-- Colours and black height together. -/
def Rb : Tree → Nat → Prop
  | .nil, n => n = 0
  | .node true l _ _ r, n => l.red = false ∧ r.red = false ∧ Rb l n ∧ Rb r n
  | .node false _ _ _ _, 0 => False
  | .node false l _ _ r, n + 1 => Rb l n ∧ Rb r n

theorem rb_iff (t : Tree) (n : Nat) : Rb t n ↔ NoRedRed t ∧ BlackHeight t n := by
  induction t generalizing n with
  | nil => simp [Rb, NoRedRed, BlackHeight]
  | node red l iv m r ihl ihr =>
    cases red with
    | true =>
      simp only [Rb, NoRedRed, BlackHeight, ihl, ihr, if_true, forall_const]
      constructor
      · rintro ⟨a, b, ⟨c, d⟩, e, f⟩; exact ⟨⟨⟨a, b⟩, c, e⟩, n, rfl, d, f⟩
      · rintro ⟨⟨⟨a, b⟩, c, e⟩, k, rfl, d, f⟩; exact ⟨a, b, ⟨c, d⟩, e, f⟩
    | false =>
      cases n with
      | zero => simp [Rb, NoRedRed, BlackHeight]
      | succ n =>
        simp only [Rb, NoRedRed, BlackHeight, ihl, ihr, Bool.false_eq_true, if_false, false_implies, true_and]
        constructor
        · rintro ⟨⟨c, d⟩, e, f⟩; exact ⟨⟨c, e⟩, n, rfl, d, f⟩
        · rintro ⟨⟨c, e⟩, k, hk, d, f⟩
          obtain rfl : n = k := by omega
          exact ⟨⟨c, d⟩, e, f⟩

/-- Colour of the nearest frame. -/
def headRed : List Frame → Bool
  | [] => false
  | f :: _ => f.red

/-- The frames are all right for a subtree of black height n, and the root is black. -/
def PathRb : List Frame → Nat → Prop
  | [], _ => True
  | f :: fs, n => Rb f.sib n ∧ (f.red = true → f.sib.red = false ∧ headRed fs = false ∧ fs ≠ []) ∧
    PathRb fs (if f.red then n else n + 1)

theorem plug_rb (path : List Frame) (n : Nat) (x : Tree) (hp : PathRb path n) (hx : Rb x n)
    (hc : x.red = true → headRed path = false) : ∃ m, Rb (plug path x) m := by
  induction path generalizing n x with
  | nil => exact ⟨n, hx⟩
  | cons f fs ih =>
    obtain ⟨h1, h2, h3⟩ := hp
    simp only [plug]
    cases hr : f.red with
    | true =>
      obtain ⟨h4, h5, _⟩ := h2 hr
      rw [hr] at h3
      have hxr : x.red = false := by
        cases hh : x.red with
        | false => rfl
        | true => have := hc hh; simp [headRed, hr] at this
      refine ih n _ h3 ?_ (fun _ => h5)
      unfold Frame.plug
      split <;> simp only [hr, Rb] <;> simp_all
    | false =>
      rw [hr] at h3
      refine ih (n + 1) _ h3 ?_ ?_
      · unfold Frame.plug
        split <;> simp only [hr, Rb] <;> simp_all
      · intro hh
        unfold Frame.plug at hh
        split at hh <;> simp [Tree.red, hr] at hh

theorem setRed_false_rb {t : Tree} {n : Nat} (h : Rb t n) : ∃ m, Rb (t.setRed false) m := by
  cases t with
  | nil => exact ⟨n, h⟩
  | node red l iv m r =>
    cases red with
    | false => exact ⟨n, h⟩
    | true => exact ⟨n + 1, h.2.2.1, h.2.2.2⟩

theorem setRed_false_red (t : Tree) : (t.setRed false).red = false := by cases t <;> rfl

theorem rb_red_black {t : Tree} {n : Nat} (h : Rb t n) (hr : t.red = true) : Rb (t.setRed false) (n + 1) := by
  cases t with
  | nil => simp [Tree.red] at hr
  | node red l iv m r =>
    simp only [Tree.red] at hr; subst hr
    exact ⟨h.2.2.1, h.2.2.2⟩

theorem plug_some (path : List Frame) (n : Nat) (x : Tree) (hp : PathRb path n) (hx : Rb x n) (hr : x.red = false) :
    ∃ t m, some (plug path x) = some t ∧ Rb t m := by
  obtain ⟨m, hm⟩ := plug_rb path n x hp hx (by simp [hr])
  exact ⟨_, m, rfl, hm⟩

theorem fixUp_rb (x : Tree) (path : List Frame) (n : Nat) (hx : Rb x n) (hr : x.red = true) (hp : PathRb path n) :
    ∃ t m, fixUp x path = some t ∧ Rb t m := by
  match path with
  | [] => exact ⟨x, n, rfl, hx⟩
  | [p] =>
    simp only [fixUp]
    cases hpr : p.red with
    | true => have := hp.2.1 hpr; simp at this
    | false =>
      obtain ⟨m, hm⟩ := plug_rb [p] n x hp hx (fun _ => by simp [headRed, hpr])
      exact ⟨_, m, by simp, hm⟩
  | p :: g :: path =>
    simp only [fixUp]
    cases hpr : p.red with
    | false =>
      obtain ⟨m, hm⟩ := plug_rb (p :: g :: path) n x hp hx (fun _ => by simp [headRed, hpr])
      exact ⟨_, m, by simp, hm⟩
    | true =>
      obtain ⟨p1, p2, p3⟩ := hp
      obtain ⟨p4, p5, _⟩ := p2 hpr
      have hgr : g.red = false := p5
      simp only [hpr, if_true] at p3
      obtain ⟨g1, g2, g3⟩ := p3
      simp only [hgr, Bool.false_eq_true, if_false] at g3
      -- the parent with black colour
      have hblack : Rb ((p.plug x).setRed false) (n + 1) := by
        unfold Frame.plug; split <;> simp only [Tree.setRed, Rb] <;> simp_all
      cases x with
      | nil => simp [Tree.red] at hr
      | node xr xl xiv xm xrr =>
        simp only [Tree.red] at hr; subst hr
        obtain ⟨x1, x2, x3, x4⟩ := hx
        cases hgs : g.sib.red with
        | true =>
          have hs := rb_red_black g1 hgs
          cases hgl : g.left with
          | true =>
            simp only [if_true]
            exact fixUp_rb _ path (n + 1) ⟨setRed_false_red _, setRed_false_red _, hblack, hs⟩ rfl g3
          | false =>
            simp only [if_true, Bool.false_eq_true, if_false]
            exact fixUp_rb _ path (n + 1) ⟨setRed_false_red _, setRed_false_red _, hs, hblack⟩ rfl g3
        | false =>
          cases hgl : g.left <;> cases hpl : p.left <;>
            simp only [if_true, Bool.false_eq_true, if_false, innerLeft, innerRight, Frame.plug, hpl, leftRotate, rightRotate, hpr,
              Option.bind_eq_bind, Option.bind_some, Tree.setRed] <;>
          · apply plug_some path (n + 1) _ g3 ?_ (by rfl)
            simp only [Rb]; simp_all [Tree.red]
termination_by path.length

/-- Colours of the way down. -/
theorem descend_rb (z : Int) (t : Tree) (n : Nat) (path : List Frame) (ht : Rb t n) (hp : PathRb path n)
    (hc : t.red = true → headRed path = false ∧ path ≠ []) : PathRb (descend z t path) 0 := by
  induction t generalizing path n with
  | nil => simp only [Rb] at ht; subst ht; exact hp
  | node red l iv m r ihl ihr =>
    simp only [descend]
    cases red with
    | true =>
      obtain ⟨h1, h2, h3, h4⟩ := ht
      obtain ⟨h5, h6⟩ := hc rfl
      split
      · exact ihl n _ h3 ⟨h4, fun _ => ⟨h2, h5, h6⟩, by simpa using hp⟩ (by simp [h1])
      · exact ihr n _ h4 ⟨h3, fun _ => ⟨h1, h5, h6⟩, by simpa using hp⟩ (by simp [h2])
    | false =>
      cases n with
      | zero => exact absurd ht (by simp [Rb])
      | succ n =>
        obtain ⟨h1, h2⟩ := ht
        split
        · exact ihl n _ h1 ⟨h2, by simp, by simpa using hp⟩ (by simp [headRed])
        · exact ihr n _ h2 ⟨h1, by simp, by simpa using hp⟩ (by simp [headRed])

theorem fixUpMaxHigh_rb (m : Int) (path : List Frame) (n : Nat) (hp : PathRb path n) :
    PathRb (fixUpMaxHigh m path) n := by
  induction path generalizing m n with
  | nil => exact hp
  | cons f fs ih =>
    obtain ⟨h1, h2, h3⟩ := hp
    refine ⟨h1, ?_, ih _ _ h3⟩
    intro hr
    obtain ⟨a, b, c⟩ := h2 hr
    refine ⟨a, ?_, ?_⟩
    · cases fs with
      | nil => rfl
      | cons g gs => exact b
    · cases fs with
      | nil => simp at c
      | cons g gs => simp [fixUpMaxHigh]

theorem insert_rb (t : Tree) (n : Nat) (low high : Int) (data : Nat) (ht : Rb t n) (hr : t.red = false) :
    ∃ s m, insert t low high data = some s ∧ Rb s m ∧ s.red = false := by
  have hp := fixUpMaxHigh_rb (create low high data).maxHigh _ _
    (descend_rb (mkIv low high data).low t n [] ht trivial (by simp [hr]))
  obtain ⟨u, m, h1, h2⟩ := fixUp_rb (create low high data) _ 0 ⟨rfl, rfl, rfl, rfl⟩ rfl hp
  obtain ⟨m', h3⟩ := setRed_false_rb h2
  exact ⟨u.setRed false, m', by simp only [insert, h1, Option.map_some], h3, setRed_false_red u⟩

/-! Cached maxima -/

/-- Each node's maxHigh is computed from its children's. -/
def MaxOk : Tree → Prop
  | .nil => True
  | .node _ l iv m r => m = max iv.high (max l.maxHigh r.maxHigh) ∧ MaxOk l ∧ MaxOk r

/-- The same for the frames, when the subtree in hand has maximum m. -/
def PathMax : List Frame → Int → Prop
  | [], _ => True
  | f :: fs, m => f.maxHigh = max f.iv.high (max m f.sib.maxHigh) ∧ MaxOk f.sib ∧ PathMax fs f.maxHigh

theorem setRed_maxOk (b : Bool) {t : Tree} (h : MaxOk t) : MaxOk (t.setRed b) := by cases t <;> exact h

theorem Frame.plug_maxOk (f : Frame) (x : Tree) (hx : MaxOk x) (hs : MaxOk f.sib)
    (hm : f.maxHigh = max f.iv.high (max x.maxHigh f.sib.maxHigh)) : MaxOk (f.plug x) ∧ (f.plug x).maxHigh = f.maxHigh := by
  unfold Frame.plug
  split
  · exact ⟨⟨hm, hx, hs⟩, rfl⟩
  · exact ⟨⟨by omega, hs, hx⟩, rfl⟩

theorem plug_max (path : List Frame) (x : Tree) (hp : PathMax path x.maxHigh) (hx : MaxOk x) : MaxOk (plug path x) := by
  induction path generalizing x with
  | nil => exact hx
  | cons f fs ih =>
    obtain ⟨h1, h2, h3⟩ := hp
    obtain ⟨a, b⟩ := f.plug_maxOk x hx h2 h1
    exact ih _ (by rw [b]; exact h3) a

theorem leftRotate_max {t s : Tree} (h : leftRotate t = some s) (ht : MaxOk t) : MaxOk s ∧ s.maxHigh = t.maxHigh := by
  unfold leftRotate at h
  split at h
  · simp only [Option.some.injEq] at h; subst h
    simp only [MaxOk, Tree.maxHigh, itMax_eq] at *
    obtain ⟨h1, h2, h3, h4, h5⟩ := ht
    refine ⟨⟨by omega, ⟨by omega, h2, h4⟩, h5⟩, by omega⟩
  · simp at h

theorem rightRotate_max {t s : Tree} (h : rightRotate t = some s) (ht : MaxOk t) : MaxOk s ∧ s.maxHigh = t.maxHigh := by
  unfold rightRotate at h
  split at h
  · simp only [Option.some.injEq] at h; subst h
    simp only [MaxOk, Tree.maxHigh, itMax_eq] at *
    obtain ⟨h1, ⟨h2, h3, h4⟩, h5⟩ := ht
    refine ⟨⟨by omega, h3, by omega, h4, h5⟩, by omega⟩
  · simp at h

theorem fixUp_max (x : Tree) (path : List Frame) (t : Tree) (h : fixUp x path = some t) (hx : MaxOk x)
    (hp : PathMax path x.maxHigh) : MaxOk t := by
  match path with
  | [] => simp only [fixUp, Option.some.injEq] at h; subst h; exact hx
  | [p] =>
    simp only [fixUp] at h
    split at h
    · simp at h
    · simp only [Option.some.injEq] at h; subst h; exact plug_max [p] x hp hx
  | p :: g :: path =>
    simp only [fixUp] at h
    have hp0 := hp
    obtain ⟨p1, p2, g1, g2, g3⟩ := hp
    obtain ⟨a, b⟩ := p.plug_maxOk x hx p2 p1
    split at h
    · split at h
      · rename_i hg
        split at h
        · refine fixUp_max _ path t h ⟨?_, setRed_maxOk _ a, setRed_maxOk _ g2⟩ g3
          simp only [setRed_maxHigh, b]; exact g1
        · cases hs : innerLeft p x with
          | none => rw [hs] at h; simp at h
          | some s =>
            rw [hs] at h
            have hso : MaxOk s ∧ s.maxHigh = p.maxHigh := by
              unfold innerLeft at hs
              split at hs
              · simp only [Option.some.injEq] at hs; subst hs; exact ⟨a, b⟩
              · have := leftRotate_max hs a; rw [b] at this; exact this
            simp only [Option.bind_some] at h
            cases ht : rightRotate (.node true (s.setRed false) g.iv g.maxHigh g.sib) with
            | none => rw [ht] at h; simp at h
            | some u =>
              rw [ht] at h
              simp only [Option.bind_some, Option.some.injEq] at h
              subst h
              obtain ⟨c, d⟩ := rightRotate_max ht ⟨by simp only [setRed_maxHigh, hso.2]; exact g1, setRed_maxOk _ hso.1, g2⟩
              exact plug_max path u (by rw [d]; exact g3) c
      · rename_i hg
        split at h
        · refine fixUp_max _ path t h ⟨?_, setRed_maxOk _ g2, setRed_maxOk _ a⟩ g3
          simp only [setRed_maxHigh, b]; omega
        · cases hs : innerRight p x with
          | none => rw [hs] at h; simp at h
          | some s =>
            rw [hs] at h
            have hso : MaxOk s ∧ s.maxHigh = p.maxHigh := by
              unfold innerRight at hs
              split at hs
              · have := rightRotate_max hs a; rw [b] at this; exact this
              · simp only [Option.some.injEq] at hs; subst hs; exact ⟨a, b⟩
            simp only [Option.bind_some] at h
            cases ht : leftRotate (.node true g.sib g.iv g.maxHigh (s.setRed false)) with
            | none => rw [ht] at h; simp at h
            | some u =>
              rw [ht] at h
              simp only [Option.bind_some, Option.some.injEq] at h
              subst h
              obtain ⟨c, d⟩ := leftRotate_max ht ⟨by simp only [setRed_maxHigh, hso.2]; omega, g2, setRed_maxOk _ hso.1⟩
              exact plug_max path u (by rw [d]; exact g3) c
    · simp only [Option.some.injEq] at h; subst h; exact plug_max _ x hp0 hx
termination_by path.length

/-- The frames' siblings have correct maxima. -/
def SibMax (path : List Frame) : Prop := ∀ f ∈ path, MaxOk f.sib

theorem descend_max (z : Int) (t : Tree) (path : List Frame) (ht : MaxOk t) (hp : SibMax path) :
    SibMax (descend z t path) := by
  induction t generalizing path with
  | nil => exact hp
  | node red l iv m r ihl ihr =>
    simp only [descend]
    obtain ⟨_, h1, h2⟩ := ht
    split
    · refine ihl _ h1 ?_
      intro f hf
      rcases List.mem_cons.1 hf with rfl | hf
      · exact h2
      · exact hp f hf
    · refine ihr _ h2 ?_
      intro f hf
      rcases List.mem_cons.1 hf with rfl | hf
      · exact h1
      · exact hp f hf

theorem fixUpMaxHigh_max (m : Int) (path : List Frame) (hp : SibMax path) : PathMax (fixUpMaxHigh m path) m := by
  induction path generalizing m with
  | nil => trivial
  | cons f fs ih =>
    refine ⟨?_, hp f (by simp), ih _ (fun g hg => hp g (by simp [hg]))⟩
    simp only [itMax_eq]
    split <;> omega

theorem insert_max (t s : Tree) (low high : Int) (data : Nat) (ht : MaxOk t) (hlh : low ≤ high) (hh : LONG_MIN ≤ high)
    (h : insert t low high data = some s) : MaxOk s := by
  unfold insert at h
  simp only at h
  cases hf : fixUp (create low high data) (fixUpMaxHigh (create low high data).maxHigh (descend (mkIv low high data).low t [])) with
  | none => rw [hf] at h; simp at h
  | some u =>
    rw [hf] at h
    simp only [Option.map_some, Option.some.injEq] at h
    subst h
    apply setRed_maxOk
    refine fixUp_max _ _ _ hf ?_ (fixUpMaxHigh_max _ _ (descend_max _ _ _ ht (by simp [SibMax])))
    refine ⟨?_, trivial, trivial⟩
    simp only [Tree.maxHigh, mkIv]
    split <;> simp only <;> omega

theorem maxOk_bound (t : Tree) (h : MaxOk t) : ∀ i ∈ t.inorder, i.high ≤ t.maxHigh := by
  induction t with
  | nil => simp [Tree.inorder]
  | node red l iv m r ihl ihr =>
    obtain ⟨h1, h2, h3⟩ := h
    intro i hi
    simp only [Tree.inorder, List.mem_append, List.mem_cons] at hi
    simp only [Tree.maxHigh]
    rcases hi with hi | rfl | hi
    · have := ihl h2 i hi; omega
    · omega
    · have := ihr h3 i hi; omega

theorem nil_max : Tree.nil.maxHigh = LONG_MIN := rfl

theorem maxOk_hit (t : Tree) (h : MaxOk t) (hl : ∀ i ∈ t.inorder, LONG_MIN ≤ i.high) :
    t = .nil ∨ ∃ i ∈ t.inorder, i.high = t.maxHigh := by
  induction t with
  | nil => exact Or.inl rfl
  | node red l iv m r ihl ihr =>
    right
    obtain ⟨h1, h2, h3⟩ := h
    simp only [Tree.maxHigh]
    have hiv := hl iv (by simp [Tree.inorder])
    rcases ihl h2 (fun i hi => hl i (by simp [Tree.inorder, hi])) with rfl | ⟨i, hi, e⟩
    · rcases ihr h3 (fun i hi => hl i (by simp [Tree.inorder, hi])) with rfl | ⟨j, hj, e'⟩
      · refine ⟨iv, by simp [Tree.inorder], ?_⟩
        simp only [nil_max] at h1; omega
      · rcases Int.le_total r.maxHigh iv.high with hh | hh
        · refine ⟨iv, by simp [Tree.inorder], ?_⟩
          simp only [nil_max] at h1; omega
        · refine ⟨j, by simp [Tree.inorder, hj], ?_⟩
          simp only [nil_max] at h1; omega
    · rcases ihr h3 (fun i hi => hl i (by simp [Tree.inorder, hi])) with rfl | ⟨j, hj, e'⟩
      · rcases Int.le_total l.maxHigh iv.high with hh | hh
        · refine ⟨iv, by simp [Tree.inorder], ?_⟩
          simp only [nil_max] at h1 hh; omega
        · refine ⟨i, by simp [Tree.inorder, hi], ?_⟩
          simp only [nil_max] at h1; omega
      · rcases Int.le_total (max l.maxHigh r.maxHigh) iv.high with hh | hh
        · exact ⟨iv, by simp [Tree.inorder], by omega⟩
        · rcases Int.le_total l.maxHigh r.maxHigh with h4 | h4
          · exact ⟨j, by simp [Tree.inorder, hj], by omega⟩
          · exact ⟨i, by simp [Tree.inorder, hi], by omega⟩

theorem maxOk_cached (t : Tree) (h : MaxOk t) (hl : ∀ i ∈ t.inorder, LONG_MIN ≤ i.high) : Cached t := by
  induction t with
  | nil => trivial
  | node red l iv m r ihl ihr =>
    refine ⟨maxOk_bound _ h, ?_, ihl h.2.1 (fun i hi => hl i (by simp [Tree.inorder, hi])),
      ihr h.2.2 (fun i hi => hl i (by simp [Tree.inorder, hi]))⟩
    rcases maxOk_hit _ h hl with hh | hh
    · simp at hh
    · exact hh

theorem cached_max {t : Tree} (h : Cached t) : ∀ i ∈ t.inorder, i.high ≤ t.maxHigh := by
  cases t with
  | nil => simp [Tree.inorder]
  | node => exact h.1

theorem cached_hit {t : Tree} (h : Cached t) (hn : t ≠ .nil) : ∃ i ∈ t.inorder, i.high = t.maxHigh := by
  cases t with
  | nil => simp at hn
  | node => exact h.2.1

theorem cached_maxOk (t : Tree) (h : Cached t) (hl : ∀ i ∈ t.inorder, LONG_MIN ≤ i.high) : MaxOk t := by
  induction t with
  | nil => trivial
  | node red l iv m r ihl ihr =>
    obtain ⟨h1, ⟨i, hi, e⟩, h3, h4⟩ := h
    refine ⟨?_, ihl h3 (fun i hi => hl i (by simp [Tree.inorder, hi])),
      ihr h4 (fun i hi => hl i (by simp [Tree.inorder, hi]))⟩
    have k1 : iv.high ≤ m := h1 iv (by simp [Tree.inorder])
    have k0 : LONG_MIN ≤ iv.high := hl iv (by simp [Tree.inorder])
    have k2 : l.maxHigh ≤ m := by
      cases l with
      | nil => simp only [Tree.maxHigh]; omega
      | node a b c d e' =>
        obtain ⟨j, hj, e''⟩ := cached_hit h3 (by simp)
        rw [← e'']; exact h1 j (List.mem_append_left _ hj)
    have k3 : r.maxHigh ≤ m := by
      cases r with
      | nil => simp only [Tree.maxHigh]; omega
      | node a b c d e' =>
        obtain ⟨j, hj, e''⟩ := cached_hit h4 (by simp)
        rw [← e'']; exact h1 j (List.mem_append_right _ (List.mem_cons_of_mem _ hj))
    simp only [Tree.inorder, List.mem_append, List.mem_cons] at hi
    rcases hi with hi | rfl | hi
    · have := cached_max h3 i hi; omega
    · omega
    · have := cached_max h4 i hi; omega

/-! Depth -/

theorem rb_depth (t : Tree) (n : Nat) (h : Rb t n) : t.depth ≤ 2 * n + (if t.red then 1 else 0) ∧ 2 ^ n ≤ t.inorder.length + 1 := by
  induction t generalizing n with
  | nil => simp only [Rb] at h; subst h; simp [Tree.depth, Tree.inorder, Tree.red]
  | node red l iv m r ihl ihr =>
    cases red with
    | true =>
      obtain ⟨h1, h2, h3, h4⟩ := h
      obtain ⟨a, b⟩ := ihl n h3
      obtain ⟨c, d⟩ := ihr n h4
      simp only [h1, h2, Bool.false_eq_true, if_false] at a c
      simp only [Tree.depth, Tree.red, if_true, Tree.inorder, List.length_append, List.length_cons]
      omega
    | false =>
      cases n with
      | zero => exact absurd h (by simp [Rb])
      | succ n =>
        obtain ⟨h3, h4⟩ := h
        obtain ⟨a, b⟩ := ihl n h3
        obtain ⟨c, d⟩ := ihr n h4
        have e1 : (if l.red = true then 1 else 0) ≤ 1 := by split <;> omega
        have e2 : (if r.red = true then 1 else 0) ≤ 1 := by split <;> omega
        simp only [Tree.depth, Tree.red, Bool.false_eq_true, if_false, Tree.inorder, List.length_append, List.length_cons,
          Nat.pow_succ]
        omega

/-! Enumeration -/

/-- The loop written as a recursive function. -/
def enumRec (low high : Int) : Tree → List Iv
  | .nil => []
  | .node _ l iv _ r =>
    let hit := overlap low high iv.low iv.high
    (if hit then [iv] else []) ++
      if l.maxHigh ≥ low then
        enumRec low high l ++ if (enumRec low high l).isEmpty then [] else enumRec low high r
      else enumRec low high r

/-- The stack as the loop keeps it: entry k (k ≥ 1) has parent k - 1. -/
def Chain (stack : List Entry) : Prop := ∀ k e, stack[k]? = some e → 1 ≤ k → e.parent + 1 = k

/-- What happens when the stack is unwound after a subtree that had something to report (or not). -/
def unwind (low high : Int) : List Entry → Bool → List Iv
  | [], _ => []
  | e :: es, found =>
    if es.isEmpty then []
    else if found || e.tryRight then
      enumRec low high e.right ++ unwind low high es true
    else unwind low high es false

theorem chain_append {s : List Entry} {e : Entry} (h : Chain (s ++ [e])) : Chain s := by
  intro k e' hk h1
  refine h k e' ?_ h1
  rw [List.getElem?_append_left]
  · exact hk
  · exact (List.getElem?_eq_some_iff.1 hk).1

theorem chain_mark {s : List Entry} {i : Nat} (h : Chain s) : Chain (mark i s) := by
  intro k e hk h1
  unfold mark at hk
  rw [List.getElem?_modify] at hk
  cases hs : s[k]? with
  | none => rw [hs] at hk; simp at hk
  | some e' =>
    rw [hs] at hk
    have := h k e' hs h1
    split at hk <;> simp at hk <;> subst hk <;> exact this

theorem mark_length (i : Nat) (s : List Entry) : (mark i s).length = s.length := by simp [mark]

/-- Marking the last entry. -/
theorem mark_last (s : List Entry) (e : Entry) : mark s.length (s ++ [e]) = s ++ [{ e with tryRight := true }] := by
  unfold mark
  induction s with
  | nil => rfl
  | cons a s ih => simp [List.modify_cons, ih]

theorem isEmpty_append' {α} (a b : List α) : (a ++ b).isEmpty = (a.isEmpty && b.isEmpty) := by cases a <;> rfl

theorem unwind_mark (low high : Int) (s : List Entry) (e : Entry) (f : Bool) :
    unwind low high ({ e with tryRight := e.tryRight || f } :: s) false = unwind low high (e :: s) f := by
  simp only [unwind]
  split
  · rfl
  · cases f <;> cases e.tryRight <;> simp

/-- The loop at node x, with the current parent the last entry, reports the subtree and then what the stack
    still asks for. -/
theorem enumLoop_eq (low high : Int) : ∀ (x : Tree) (s : List Entry) (e : Entry) (cur : Nat), Chain (s ++ [e]) → (x = .nil ∨ cur = s.length) →
    enumLoop low high x (s ++ [e]) cur =
      enumRec low high x ++ unwind low high (e :: s.reverse) (!(enumRec low high x).isEmpty)
  | .node red l iv m r, s, e, cur, hc, hcur => by
    obtain rfl : cur = s.length := by simpa using hcur
    rw [enumLoop]
    simp only [enumRec]
    generalize hhit : overlap low high iv.low iv.high = hit
    have hst : (if hit = true then mark s.length (s ++ [e]) else s ++ [e]) = s ++ [{ e with tryRight := e.tryRight || hit }] := by
      cases hit with
      | true => simp [mark_last]
      | false => simp
    rw [hst]
    have hc' : Chain (s ++ [{ e with tryRight := e.tryRight || hit }]) := by
      rw [← hst]; split
      · exact chain_mark hc
      · exact hc
    rw [List.append_assoc (if hit = true then [iv] else [])]
    congr 1
    split
    · have hlen : (s ++ [{ e with tryRight := e.tryRight || hit }]).length = s.length + 1 := by simp
      have hc2 : Chain ((s ++ [{ e with tryRight := e.tryRight || hit }]) ++ [⟨r, false, s.length⟩]) := by
        intro k e' hk h1
        rcases Nat.lt_or_ge k (s.length + 1) with hlt | hge
        · rw [List.getElem?_append_left (by rw [hlen]; exact hlt)] at hk
          exact hc' k e' hk h1
        · have hk2 := (List.getElem?_eq_some_iff.1 hk).1
          simp only [List.length_append, List.length_cons, List.length_nil] at hk2
          obtain rfl : k = s.length + 1 := by omega
          rw [List.getElem?_append_right (by rw [hlen]; exact Nat.le_refl _), hlen] at hk
          simp at hk
          subst hk; rfl
      have ih := enumLoop_eq low high l (s ++ [{ e with tryRight := e.tryRight || hit }]) ⟨r, false, s.length⟩ _ hc2 (Or.inr rfl)
      rw [ih]
      simp only [List.reverse_append, List.reverse_cons, List.reverse_nil, List.nil_append, List.singleton_append]
      rw [List.append_assoc]
      congr 1
      generalize enumRec low high l = el
      conv => lhs; unfold unwind
      simp only [List.isEmpty_cons, Bool.false_eq_true, if_false, Bool.or_false]
      cases hel : el.isEmpty with
      | true =>
        have : el = [] := List.isEmpty_iff.1 hel
        subst this
        simp only [Bool.not_true, Bool.false_eq_true, if_false, if_true, List.append_nil, List.nil_append]
        rw [unwind_mark]
        cases hit <;> simp
      | false =>
        simp only [Bool.not_false, if_true, Bool.false_eq_true, if_false]
        congr 1
        cases el with
        | nil => simp at hel
        | cons a b =>
          simp only [isEmpty_append', List.isEmpty_cons, Bool.false_and, Bool.and_false, Bool.not_false]
          simp only [unwind, Bool.true_or, if_true]
    · rename_i hlow
      have ih := enumLoop_eq low high r s _ s.length hc' (Or.inr rfl)
      rw [ih]
      congr 1
      generalize enumRec low high r = er
      simp only [unwind]
      split
      · rfl
      · cases hit <;> cases er <;> cases e.tryRight <;> simp
  | .nil, s, e, cur, hc, _ => by
    rw [enumLoop]
    simp only [enumRec, List.nil_append, List.isEmpty_nil, Bool.not_true]
    have hs0 := List.eq_nil_or_concat s
    simp only [List.concat_eq_append] at hs0
    rcases hs0 with rfl | ⟨s', e', rfl⟩
    · simp [unwind]
    · have hlen : 1 < (s' ++ [e'] ++ [e]).length := by simp
      rw [if_pos hlen]
      have hlast : (s' ++ [e'] ++ [e]).getLast? = some e := by simp
      have hdrop : (s' ++ [e'] ++ [e]).dropLast = s' ++ [e'] := by simp [List.dropLast_concat]
      split
      · rename_i hn; rw [hlast] at hn; simp at hn
      · rename_i e2 hn
        rw [hlast] at hn
        simp only [Option.some.injEq] at hn
        subst hn
        rw [hdrop]
        have hpar : e.parent = s'.length := by
          have := hc (s'.length + 1) e (by simp) (by omega)
          omega
        have hc1 := chain_append hc
        simp only [List.reverse_append, List.reverse_cons, List.reverse_nil, List.nil_append, List.singleton_append]
        conv => rhs; unfold unwind
        simp only [List.isEmpty_cons, Bool.false_eq_true, if_false, Bool.false_or]
        split
        · rename_i ht
          rw [hpar, mark_last]
          have ih := enumLoop_eq low high e.right s' { e' with tryRight := true } s'.length (by
            have := chain_mark (i := s'.length) hc1
            rwa [mark_last] at this) (Or.inr rfl)
          rw [ih]
          congr 1
          simp only [unwind]
          split
          · rfl
          · simp
        · have ih := enumLoop_eq low high .nil s' e' cur hc1 (Or.inl rfl)
          simpa [enumRec] using ih
termination_by x s e => 2 * x.size + work (s ++ [e])
decreasing_by
  all_goals subst_vars; simp only [work_append, Tree.size]; simp [work] <;> omega

/-- The nodes in the order the loop meets them. -/
def Tree.preorder : Tree → List Iv
  | .nil => []
  | .node _ l iv _ r => iv :: (l.preorder ++ r.preorder)

theorem preorder_perm (t : Tree) : t.preorder.Perm t.inorder := by
  induction t with
  | nil => exact .refl _
  | node red l iv m r ihl ihr =>
    simp only [Tree.preorder, Tree.inorder]
    exact ((ihl.append ihr).cons iv).trans List.perm_middle.symm

theorem overlap_iff (low high : Int) (i : Iv) (h1 : IsInt low) (h2 : IsInt high) (h3 : IsInt i.low) (h4 : IsInt i.high)
    (hi : i.low ≤ i.high) (hq : low ≤ high) : overlap low high i.low i.high = true ↔ i.low ≤ high ∧ low ≤ i.high := by
  have e : ∀ v, IsInt v → toInt v = v := by
    intro v hv
    unfold toInt
    obtain ⟨a, b⟩ := hv
    simp only [Int.bmod_def]
    split <;> omega
  unfold overlap
  rw [e _ h1, e _ h2, e _ h3, e _ h4]
  split <;> simp only [decide_eq_true_eq] <;> omega

theorem enumRec_eq (low high : Int) (t : Tree) (hs : Sorted t.inorder) (hc : Cached t) (hl : LONG_MIN < low)
    (ho : ∀ i ∈ t.inorder, overlap low high i.low i.high = true ↔ i.low ≤ high ∧ low ≤ i.high) :
    enumRec low high t = t.preorder.filter fun i => overlap low high i.low i.high := by
  induction t with
  | nil => rfl
  | node red l iv m r ihl ihr =>
    obtain ⟨s1, s2, s3⟩ := List.pairwise_append.1 hs
    obtain ⟨s4, s5⟩ := List.pairwise_cons.1 s2
    obtain ⟨_, _, c1, c2⟩ := hc
    have ol : ∀ i ∈ l.inorder, overlap low high i.low i.high = true ↔ i.low ≤ high ∧ low ≤ i.high :=
      fun i hi => ho i (by simp [Tree.inorder, hi])
    have or : ∀ i ∈ r.inorder, overlap low high i.low i.high = true ↔ i.low ≤ high ∧ low ≤ i.high :=
      fun i hi => ho i (by simp [Tree.inorder, hi])
    have il := ihl s1 c1 ol
    have ir := ihr s5 c2 or
    simp only [enumRec, Tree.preorder, List.filter_cons, List.filter_append]
    rw [il, ir]
    have hcons : ∀ (b : Bool) (x y : List Iv), x = y → ((if b = true then [iv] else []) ++ x) = if b = true then iv :: y else y := by
      intro b x y h; subst h; cases b <;> rfl
    apply hcons
    split
    · rename_i hge
      split
      · -- nothing on the left: nothing on the right
        rename_i he
        have he := List.isEmpty_iff.1 he
        rw [he]
        have hn : l ≠ .nil := by
          intro hh; subst hh
          simp only [nil_max] at hge; omega
        obtain ⟨i, hi, e⟩ := cached_hit c1 hn
        have hno : overlap low high i.low i.high ≠ true := by
          intro hh
          have : i ∈ l.preorder.filter fun i => overlap low high i.low i.high :=
            List.mem_filter.2 ⟨(preorder_perm l).mem_iff.2 hi, hh⟩
          rw [he] at this; simp at this
        have hgt : high < i.low := by
          rcases Int.lt_or_le high i.low with h | h
          · exact h
          · exact absurd ((ol i hi).2 ⟨h, by omega⟩) hno
        symm
        simp only [List.append_nil, List.nil_append, List.filter_eq_nil_iff]
        intro j hj
        have hj := (preorder_perm r).mem_iff.1 hj
        rw [or j hj]
        have h1 := s3 i hi iv (by simp)
        have h2 := s4 j hj
        omega
      · rfl
    · rename_i hlt
      have : l.preorder.filter (fun i => overlap low high i.low i.high) = [] := by
        rw [List.filter_eq_nil_iff]
        intro j hj
        have hj := (preorder_perm l).mem_iff.1 hj
        rw [ol j hj]
        have := cached_max c1 j hj
        omega
      rw [this]; rfl

theorem enumerate_rec (low high : Int) (t : Tree) : enumerate t low high = enumRec low high t := by
  have := enumLoop_eq low high t [] ⟨.nil, false, 0⟩ 0 (by
    intro k e hk h1
    have := (List.getElem?_eq_some_iff.1 hk).1
    simp at this; omega) (Or.inr rfl)
  simp only [List.nil_append, List.length_nil] at this
  unfold enumerate
  rw [this]
  simp [unwind]

end Verif.Inttree
