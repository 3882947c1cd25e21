import Verif.Inttree.Delete
/-
Properties of the interval tree (C08, C09).
-/
namespace Verif.Inttree

/-- An interval with endpoints of type long, in the right order. -/
def Proper (i : Iv) : Prop := IsLong i.low ∧ IsLong i.high ∧ i.low ≤ i.high

theorem mkIv_proper {i : Iv} (h : i.low ≤ i.high) : mkIv i.low i.high i.data = i := by
  unfold mkIv
  split
  · rfl
  · have : i.low = i.high := by omega
    cases i; simp_all

/-- C08: the empty tree is valid. -/
theorem empty_valid : Valid .nil := ⟨List.Pairwise.nil, rfl, trivial, ⟨0, rfl⟩, trivial⟩

/-- C08: inserting into a valid tree succeeds (no rotation ever touches a sentinel) and gives a valid tree,
    with the new interval after all those that start no later and before all others, these unmoved. -/
theorem insert_valid (t : Tree) (ht : Valid t) (hp : ∀ i ∈ t.inorder, Proper i) (i : Iv) (hi : Proper i) :
    ∃ s, insert t i.low i.high i.data = some s ∧ Valid s ∧
      ∃ l1 l2, t.inorder = l1 ++ l2 ∧ s.inorder = l1 ++ i :: l2 ∧
        (∀ j ∈ l1, j.low ≤ i.low) ∧ (∀ j ∈ l2, i.low < j.low) := by
  obtain ⟨n, hn⟩ := ht.balanced
  have hrb := (rb_iff t n).2 ⟨ht.noRedRed, hn⟩
  obtain ⟨s, m, hs, hsrb, hsr⟩ := insert_rb t n i.low i.high i.data hrb ht.root
  have hmk := mkIv_proper hi.2.2
  obtain ⟨l1, l2, e1, e2, h1, h2⟩ := insert_inorder t s _ _ _ ht.sorted hs
  rw [hmk] at e2 h1 h2
  have hlong : ∀ j : Iv, Proper j → LONG_MIN ≤ j.high := by
    intro j hj; have := hj.2.1.1; unfold LONG_MIN; omega
  refine ⟨s, hs, ⟨insert_sorted t s _ _ _ ht.sorted hs, hsr, ((rb_iff s m).1 hsrb).1, ⟨m, ((rb_iff s m).1 hsrb).2⟩, ?_⟩,
    l1, l2, e1, e2, h1, h2⟩
  refine maxOk_cached s (insert_max t s _ _ _ (cached_maxOk t ht.cached (fun j hj => hlong j (hp j hj))) hi.2.2 (hlong i hi) hs) ?_
  intro j hj
  apply hlong
  rw [e2] at hj
  rcases List.mem_append.1 hj with hj | hj
  · exact hp j (by rw [e1]; simp [hj])
  · rcases List.mem_cons.1 hj with rfl | hj
    · exact hi
    · exact hp j (by rw [e1]; simp [hj])

/-- C08: every sequence of insertions into a new tree succeeds, gives a valid red-black interval tree, and the
    tree holds exactly the intervals inserted. -/
theorem insertAll_valid (l : List Iv) (hl : ∀ i ∈ l, Proper i) :
    ∃ t, insertAll l = some t ∧ Valid t ∧ t.inorder.Perm l := by
  have key : ∀ (l acc : List Iv) (t : Tree), Valid t → t.inorder.Perm acc → (∀ i ∈ acc, Proper i) → (∀ i ∈ l, Proper i) →
      ∃ s, l.foldl (fun t i => t.bind fun t => insert t i.low i.high i.data) (some t) = some s ∧ Valid s ∧
        s.inorder.Perm (acc ++ l) := by
    intro l
    induction l with
    | nil => intro acc t ht hp _ _; exact ⟨t, rfl, ht, by simpa using hp⟩
    | cons i l ih =>
      intro acc t ht hp ha hl
      obtain ⟨s, h1, h2, l1, l2, e1, e2, _, _⟩ := insert_valid t ht (fun j hj => ha j (hp.mem_iff.1 hj)) i (hl i (by simp))
      simp only [List.foldl_cons, Option.bind_some, h1]
      have hp' : s.inorder.Perm (acc ++ [i]) := by
        rw [e2]
        refine List.perm_middle.trans ?_
        rw [← e1]
        exact (hp.cons i).trans (List.perm_append_singleton i acc).symm
      obtain ⟨u, g1, g2, g3⟩ := ih (acc ++ [i]) s h2 hp' (by
        intro j hj
        rcases List.mem_append.1 hj with hj | hj
        · exact ha j hj
        · simp only [List.mem_singleton] at hj; subst hj; exact hl j (by simp)) (fun j hj => hl j (by simp [hj]))
      exact ⟨u, g1, g2, by simpa using g3⟩
  obtain ⟨t, h1, h2, h3⟩ := key l [] .nil empty_valid (.refl _) (by simp) hl
  exact ⟨t, h1, h2, by simpa using h3⟩

/-- A tree of seven intervals. -/
def seven : List Iv := [⟨5, 9, 0⟩, ⟨1, 3, 1⟩, ⟨1, 20, 2⟩, ⟨8, 8, 3⟩, ⟨6, 7, 4⟩, ⟨2, 11, 5⟩, ⟨0, 1, 6⟩]
example : ∀ i ∈ seven, Proper i := by
  intro i hi
  simp only [seven, List.mem_cons, List.not_mem_nil, or_false] at hi
  rcases hi with rfl | rfl | rfl | rfl | rfl | rfl | rfl <;> simp [Proper, IsLong]
example : insertAll seven = some
    (.node false
      (.node false (.node true .nil ⟨0, 1, 6⟩ 1 .nil) ⟨1, 3, 1⟩ 3 .nil) ⟨1, 20, 2⟩ 20
      (.node true (.node false (.node true .nil ⟨2, 11, 5⟩ 11 .nil) ⟨5, 9, 0⟩ 11 .nil) ⟨6, 7, 4⟩ 11
        (.node false .nil ⟨8, 8, 3⟩ 8 .nil))) := by decide +kernel

/-- The node reached from the root by going left (true) and right (false), and the frames above it. -/
def find : Tree → List Bool → List Frame → Option (Bool × Tree × Iv × Int × Tree × List Frame)
  | .nil, _, _ => none
  | .node red l iv m r, [], path => some (red, l, iv, m, r, path)
  | .node red l iv m r, true :: ds, path => find l ds (⟨true, red, iv, m, r⟩ :: path)
  | .node red l iv m r, false :: ds, path => find r ds (⟨false, red, iv, m, l⟩ :: path)

theorem find_plug (t : Tree) (ds : List Bool) (path : List Frame) (z) (h : find t ds path = some z) :
    plug z.2.2.2.2.2 (.node z.1 z.2.1 z.2.2.1 z.2.2.2.1 z.2.2.2.2.1) = plug path t := by
  induction t generalizing ds path with
  | nil => simp [find] at h
  | node red l iv m r ihl ihr =>
    cases ds with
    | nil => simp only [find, Option.some.injEq] at h; subst h; rfl
    | cons d ds =>
      cases d with
      | true => simp only [find] at h; rw [ihl _ _ h]; rfl
      | false => simp only [find] at h; rw [ihr _ _ h]; rfl

theorem around_context (path : List Frame) : ∃ a b, ∀ l, around path l = a ++ l ++ b := by
  induction path with
  | nil => exact ⟨[], [], by simp [around]⟩
  | cons f fs ih =>
    obtain ⟨a, b, h⟩ := ih
    cases hf : f.left with
    | true => exact ⟨a, f.iv :: f.sib.inorder ++ b, by intro l; simp [around, hf, h]⟩
    | false => exact ⟨a ++ f.sib.inorder ++ [f.iv], b, by intro l; simp [around, hf, h]⟩

/-- C08: deleting any node of a valid tree succeeds and gives a valid tree, from which exactly that interval
    is gone, the others in the same order. -/
theorem delete_valid (t : Tree) (ht : Valid t) (hp : ∀ i ∈ t.inorder, Proper i) (ds : List Bool)
    (zred : Bool) (zl : Tree) (ziv : Iv) (zm : Int) (zr : Tree) (path : List Frame)
    (hz : find t ds [] = some (zred, zl, ziv, zm, zr, path)) :
    ∃ s, delete zred zl zr path = some s ∧ Valid s ∧
      ∃ l1 l2, t.inorder = l1 ++ ziv :: l2 ∧ s.inorder = l1 ++ l2 := by
  have hpl := find_plug t ds [] _ hz
  simp only [plug] at hpl
  obtain ⟨n, hn⟩ := ht.balanced
  have hrb := (rb_iff t n).2 ⟨ht.noRedRed, hn⟩
  obtain ⟨s, m, hs, hsrb, hsr⟩ := delete_rb zred zl ziv zm zr path n (hpl.symm ▸ hrb) (hpl.symm ▸ ht.root)
  obtain ⟨a, b, hab⟩ := around_context path
  have e1 : t.inorder = (a ++ zl.inorder) ++ ziv :: (zr.inorder ++ b) := by
    rw [← hpl, plug_inorder, hab]; simp [Tree.inorder]
  have e2 : s.inorder = (a ++ zl.inorder) ++ (zr.inorder ++ b) := by
    rw [delete_inorder _ _ _ _ _ hs, hab]; simp
  have hlong : ∀ j : Iv, Proper j → LONG_MIN ≤ j.high := by
    intro j hj; have := hj.2.1.1; unfold LONG_MIN; omega
  have hmem : ∀ j ∈ s.inorder, j ∈ t.inorder := by
    intro j hj
    rw [e2] at hj; rw [e1]
    rcases List.mem_append.1 hj with hj | hj
    · exact List.mem_append_left _ hj
    · exact List.mem_append_right _ (List.mem_cons_of_mem _ hj)
  refine ⟨s, hs, ⟨?_, hsr, ((rb_iff s m).1 hsrb).1, ⟨m, ((rb_iff s m).1 hsrb).2⟩, ?_⟩, _, _, e1, e2⟩
  · have := ht.sorted
    rw [e1] at this; rw [e2]
    refine List.Pairwise.sublist ?_ this
    exact List.Sublist.append (List.Sublist.refl _) (List.sublist_cons_self _ _)
  · refine maxOk_cached s (delete_max zred zl ziv zm zr path s ?_ hs) (fun j hj => hlong j (hp j (hmem j hj)))
    rw [hpl]
    exact cached_maxOk t ht.cached (fun j hj => hlong j (hp j hj))

/-- One use of the tree: insert an interval, or delete the node at a place. -/
inductive Op where
  | ins (i : Iv)
  | del (ds : List Bool)

/-- The outcomes of a use.  Deleting where there is no node is not possible: nothing happens. -/
def Op.run : Op → Tree → Option Tree
  | .ins i, t => insert t i.low i.high i.data
  | .del ds, t => match find t ds [] with
    | none => some t
    | some (red, l, _, _, r, path) => delete red l r path

/-- What is in the tree after the use, in terms of what was in it. -/
inductive Op.Changes : Op → Tree → List Iv → List Iv → Prop where
  | ins (i : Iv) (t : Tree) (l : List Iv) : Changes (.ins i) t l (i :: l)
  | none (ds : List Bool) (t : Tree) (l : List Iv) : find t ds [] = none → Changes (.del ds) t l l
  | del (ds : List Bool) (t : Tree) (l : List Iv) (red zl i m zr path) :
      find t ds [] = some (red, zl, i, m, zr, path) → i ∈ l → Changes (.del ds) t l (l.erase i)

/-- C08: every history of insertions and deletions keeps the tree a valid red-black interval tree, without
    ever failing; it holds exactly the intervals inserted and not deleted. -/
theorem history_valid (ops : List Op) (hi : ∀ i, Op.ins i ∈ ops → Proper i) :
    ∃ (trees : List Tree) (bags : List (List Iv)), trees.length = ops.length + 1 ∧ bags.length = ops.length + 1 ∧
      trees[0]? = some .nil ∧ bags[0]? = some [] ∧
      (∀ (k : Nat) t b, trees[k]? = some t → bags[k]? = some b → Valid t ∧ t.inorder.Perm b) ∧
      (∀ (k : Nat) op t t' b b', ops[k]? = some op → trees[k]? = some t → trees[k + 1]? = some t' →
        bags[k]? = some b → bags[k + 1]? = some b' → op.run t = some t' ∧ op.Changes t b b') := by
  have key : ∀ (ops : List Op) (t : Tree) (b : List Iv), (∀ i, Op.ins i ∈ ops → Proper i) → Valid t → t.inorder.Perm b →
      (∀ i ∈ b, Proper i) →
      ∃ (trees : List Tree) (bags : List (List Iv)), trees.length = ops.length + 1 ∧ bags.length = ops.length + 1 ∧
      trees[0]? = some t ∧ bags[0]? = some b ∧
      (∀ (k : Nat) t b, trees[k]? = some t → bags[k]? = some b → Valid t ∧ t.inorder.Perm b) ∧
      (∀ (k : Nat) op t t' b b', ops[k]? = some op → trees[k]? = some t → trees[k + 1]? = some t' →
        bags[k]? = some b → bags[k + 1]? = some b' → op.run t = some t' ∧ op.Changes t b b') := by
    intro ops
    induction ops with
    | nil =>
      intro t b _ ht hp _
      refine ⟨[t], [b], rfl, rfl, rfl, rfl, ?_, by simp⟩
      intro k t' b' h1 h2
      cases k with
      | zero =>
        simp only [List.getElem?_cons_zero, Option.some.injEq] at h1 h2; subst h1 h2; exact ⟨ht, hp⟩
      | succ k => simp at h1
    | cons op ops ih =>
      intro t b hi ht hp hb
      have step : ∃ t' b', op.run t = some t' ∧ op.Changes t b b' ∧ Valid t' ∧ t'.inorder.Perm b' ∧ ∀ i ∈ b', Proper i := by
        have hpt : ∀ i ∈ t.inorder, Proper i := fun i h => hb i (hp.mem_iff.1 h)
        cases op with
        | ins i =>
          obtain ⟨s, h1, h2, l1, l2, e1, e2, _, _⟩ := insert_valid t ht hpt i (hi i (by simp))
          refine ⟨s, i :: b, h1, .ins i t b, h2, ?_, ?_⟩
          · rw [e2]
            refine List.perm_middle.trans ?_
            rw [← e1]
            exact hp.cons i
          · intro j hj
            rcases List.mem_cons.1 hj with rfl | hj
            · exact hi j (by simp)
            · exact hb j hj
        | del ds =>
          simp only [Op.run]
          cases hf : find t ds [] with
          | none => exact ⟨t, b, rfl, .none ds t b hf, ht, hp, hb⟩
          | some z =>
            obtain ⟨zred, zl, ziv, zm, zr, path⟩ := z
            obtain ⟨s, h1, h2, l1, l2, e1, e2⟩ := delete_valid t ht hpt ds _ _ _ _ _ _ hf
            have hin : ziv ∈ b := hp.mem_iff.1 (by rw [e1]; simp)
            refine ⟨s, b.erase ziv, h1, .del ds t b _ _ _ _ _ _ hf hin, h2, ?_, ?_⟩
            · have h3 : (ziv :: s.inorder).Perm (ziv :: b.erase ziv) := by
                refine List.Perm.trans ?_ (List.perm_cons_erase hin)
                refine List.Perm.trans ?_ hp
                rw [e1, e2]
                exact List.perm_middle.symm
              exact h3.cons_inv
            · intro j hj; exact hb j (List.mem_of_mem_erase hj)
      obtain ⟨t', b', s1, s2, s3, s4, s5⟩ := step
      obtain ⟨trees, bags, g1, g2, g3, g4, g5, g6⟩ := ih t' b' (fun i h => hi i (by simp [h])) s3 s4 s5
      refine ⟨t :: trees, b :: bags, by simp [g1], by simp [g2], rfl, rfl, ?_, ?_⟩
      · intro k u c h1 h2
        cases k with
        | zero => simp only [List.getElem?_cons_zero, Option.some.injEq] at h1 h2; subst h1 h2; exact ⟨ht, hp⟩
        | succ k => simp only [List.getElem?_cons_succ] at h1 h2; exact g5 k u c h1 h2
      · intro k o u u' c c' h0 h1 h2 h3 h4
        simp only [List.getElem?_cons_succ] at h2 h4
        cases k with
        | zero =>
          simp only [List.getElem?_cons_zero, Option.some.injEq] at h0 h1 h3; subst h0 h1 h3
          rw [g3] at h2; rw [g4] at h4
          simp only [Option.some.injEq] at h2 h4; subst h2 h4
          exact ⟨s1, s2⟩
        | succ k =>
          simp only [List.getElem?_cons_succ] at h0 h1 h3
          exact g6 k o u u' c c' h0 h1 h2 h3 h4
  exact key ops .nil [] hi empty_valid (.refl _) (by simp)

/- Deleting the root of the tree of seven: its successor takes its place. -/
example : (insertAll seven).bind (Op.del []).run = some
    (.node false
      (.node false (.node true .nil ⟨0, 1, 6⟩ 1 .nil) ⟨1, 3, 1⟩ 3 .nil) ⟨2, 11, 5⟩ 11
      (.node true (.node false .nil ⟨5, 9, 0⟩ 9 .nil) ⟨6, 7, 4⟩ 9
        (.node false .nil ⟨8, 8, 3⟩ 8 .nil))) := by decide +kernel
/- Deleting a black leaf under a red node: the sibling is repainted. -/
example : ((insertAll seven).bind (Op.del []).run).bind (Op.del [false, false]).run = some
    (.node false
      (.node false (.node true .nil ⟨0, 1, 6⟩ 1 .nil) ⟨1, 3, 1⟩ 3 .nil) ⟨2, 11, 5⟩ 11
      (.node false (.node true .nil ⟨5, 9, 0⟩ 9 .nil) ⟨6, 7, 4⟩ 9 .nil)) := by decide +kernel

/-- C08: in a valid tree with n intervals no path has more than 2 log2 (n + 1) nodes. -/
theorem valid_depth (t : Tree) (ht : Valid t) : 2 ^ t.depth ≤ (t.inorder.length + 1) ^ 2 := by
  obtain ⟨n, hn⟩ := ht.balanced
  obtain ⟨h1, h2⟩ := rb_depth t n ((rb_iff t n).2 ⟨ht.noRedRed, hn⟩)
  rw [ht.root] at h1
  simp only [Bool.false_eq_true, if_false, Nat.add_zero] at h1
  calc 2 ^ t.depth ≤ 2 ^ (2 * n) := Nat.pow_le_pow_right (by omega) h1
    _ = (2 ^ n) ^ 2 := by rw [Nat.mul_comm, Nat.pow_mul]
    _ ≤ _ := Nat.pow_le_pow_left h2 2

/-- The order of the endpoints matters although the code swaps them: the cached maximum of the new node is
    the second argument, so inserting an interval backwards loses it. -/
theorem insert_backwards : ∃ t, insert .nil 9 5 0 = some t ∧ t.inorder = [⟨5, 9, 0⟩] ∧ ¬ Cached t :=
  ⟨_, rfl, rfl, by intro h; have := h.1 ⟨5, 9, 0⟩ (by decide); revert this; decide⟩

/-- C09: in a valid tree, a query calls the callback exactly once for each interval that has a point in
    common with the query, and for no other (endpoints of type int, since the code compares ints). -/
theorem enumerate_exact (t : Tree) (ht : Valid t) (low high : Int) (hq : low ≤ high) (h1 : IsInt low) (h2 : IsInt high)
    (hi : ∀ i ∈ t.inorder, i.low ≤ i.high ∧ IsInt i.low ∧ IsInt i.high) :
    ∃ p : Iv → Bool, (∀ i ∈ t.inorder, p i = true ↔ Meets low high i) ∧
      (enumerate t low high).Perm (t.inorder.filter p) := by
  have ho : ∀ i ∈ t.inorder, overlap low high i.low i.high = true ↔ i.low ≤ high ∧ low ≤ i.high :=
    fun i hi' => overlap_iff low high i h1 h2 (hi i hi').2.1 (hi i hi').2.2 (hi i hi').1 hq
  refine ⟨fun i => overlap low high i.low i.high, ?_, ?_⟩
  · intro i hi'
    rw [ho i hi']
    have := hi i hi'
    constructor
    · rintro ⟨a, b⟩
      exact ⟨max low i.low, by omega, by omega, by omega, by omega⟩
    · rintro ⟨x, a, b, c, d⟩; omega
  · rw [enumerate_rec, enumRec_eq low high t ht.sorted ht.cached (by have := h1.1; unfold LONG_MIN; omega) ho]
    exact (preorder_perm t).filter _

/-- C08 and C09 together: after any insertions, the intervals reported for a query are exactly those inserted
    that meet it, each as often as it was inserted. -/
theorem insert_then_enumerate (l : List Iv) (hl : ∀ i ∈ l, i.low ≤ i.high ∧ IsInt i.low ∧ IsInt i.high) (low high : Int)
    (hq : low ≤ high) (h1 : IsInt low) (h2 : IsInt high) (p : Iv → Bool) (hp : ∀ i, p i = true ↔ Meets low high i) :
    ∃ t, insertAll l = some t ∧ (enumerate t low high).Perm (l.filter p) := by
  obtain ⟨t, a, b, c⟩ := insertAll_valid l (fun i hi => by
    obtain ⟨x, y, z⟩ := hl i hi
    exact ⟨⟨by have := y.1; omega, by have := y.2; omega⟩, ⟨by have := z.1; omega, by have := z.2; omega⟩, x⟩)
  refine ⟨t, a, ?_⟩
  obtain ⟨q, hq1, hq2⟩ := enumerate_exact t b low high hq h1 h2 (fun i hi => hl i (c.mem_iff.1 hi))
  refine hq2.trans ?_
  have : t.inorder.filter q = t.inorder.filter p := by
    apply List.filter_congr
    intro i hi
    rw [Bool.eq_iff_iff, hq1 i hi, hp i]
  rw [this]
  exact c.filter p
example : (insertAll seven).map (fun t => enumerate t 8 10) = some [⟨1, 20, 2⟩, ⟨5, 9, 0⟩, ⟨2, 11, 5⟩, ⟨8, 8, 3⟩] := by
  decide +kernel

/-- C09 needs endpoints of type int: the interval [2^32, 2^32 + 5] is reported for the query [0, 0], and not
    for the query [2^31, 2^32 + 2], which it meets. -/
theorem enumerate_truncates :
    (insertAll [⟨4294967296, 4294967301, 7⟩]).map (fun t => enumerate t 0 0) = some [⟨4294967296, 4294967301, 7⟩] ∧
    (insertAll [⟨6442450944, 6442450950, 7⟩]).map (fun t => enumerate t 0 6442450945) = some [] ∧
    Meets 0 6442450945 ⟨6442450944, 6442450950, 7⟩ :=
  ⟨by decide +kernel, by decide +kernel, 6442450944, by decide, by decide, by decide, by decide⟩

/-- C09, and a query starting at LONG_MIN skips right subtrees: the empty left child's cached maximum is not
    below it. -/
theorem enumerate_long_min :
    (insertAll [⟨1, 2, 0⟩, ⟨3, 4, 1⟩]).map (fun t => enumerate t LONG_MIN 3) = some [⟨1, 2, 0⟩] ∧
    Meets LONG_MIN 3 ⟨3, 4, 1⟩ :=
  ⟨by decide +kernel, 3, by decide, by decide, by decide, by decide⟩

/-! Neighbours -/

theorem minIv_head (t : Tree) : minIv t = t.inorder.head? := by
  induction t with
  | nil => rfl
  | node red l iv m r ihl ihr =>
    cases l with
    | nil => rfl
    | node a b c d e =>
      simp only [minIv, Tree.inorder] at *
      rw [ihl]
      simp [List.head?_append]

theorem getLast?_append_ne {α} (a : List α) {b : List α} (h : b ≠ []) : (a ++ b).getLast? = b.getLast? := by
  rw [List.getLast?_append]
  cases hb : b.getLast? with
  | none => exact absurd (List.getLast?_eq_none_iff.1 hb) h
  | some x => rfl

theorem maxIv_last (t : Tree) : maxIv t = t.inorder.getLast? := by
  induction t with
  | nil => rfl
  | node red l iv m r ihl ihr =>
    cases r with
    | nil => simp [maxIv, Tree.inorder]
    | node a b c d e =>
      simp only [maxIv, Tree.inorder] at *
      rw [ihr]
      have e1 : l.inorder ++ iv :: (b.inorder ++ c :: e.inorder) = (l.inorder ++ [iv]) ++ (b.inorder ++ c :: e.inorder) := by simp
      rw [e1, getLast?_append_ne (l.inorder ++ [iv]) (by simp)]

/-- What stands after the subtree in hand. -/
theorem around_split (path : List Frame) : ∃ pre post, (∀ l, around path l = pre ++ l ++ post) ∧
    upSucc path = post.head? ∧ upPred path = pre.getLast? := by
  induction path with
  | nil => exact ⟨[], [], by simp [around], rfl, rfl⟩
  | cons f fs ih =>
    obtain ⟨pre, post, h1, h2, h3⟩ := ih
    cases hl : f.left with
    | true =>
      refine ⟨pre, f.iv :: f.sib.inorder ++ post, fun l => by simp [around, hl, h1], by simp [upSucc, hl], ?_⟩
      simp [upPred, hl, h3]
    | false =>
      refine ⟨pre ++ f.sib.inorder ++ [f.iv], post, fun l => by simp [around, hl, h1], by simp [upSucc, hl, h2], ?_⟩
      simp [upPred, hl]

/-- C08: `IT_get_successor` and `IT_get_predecessor` of a node give the next and the previous interval of the
    tree in order, or nil at the ends. -/
theorem neighbours (red : Bool) (l : Tree) (iv : Iv) (m : Int) (r : Tree) (path : List Frame) :
    ∃ pre post, (plug path (.node red l iv m r)).inorder = pre ++ iv :: post ∧
      successor r path = post.head? ∧ predecessor l path = pre.getLast? := by
  obtain ⟨pre, post, h1, h2, h3⟩ := around_split path
  refine ⟨pre ++ l.inorder, r.inorder ++ post, ?_, ?_, ?_⟩
  · rw [plug_inorder, h1]; simp [Tree.inorder]
  · cases r with
    | nil => simpa [successor, Tree.inorder] using h2
    | node a b c d e =>
      simp only [successor, minIv_head]
      rw [List.head?_append]
      simp [Tree.inorder, List.head?_append]
  · cases l with
    | nil => simpa [predecessor, Tree.inorder] using h3
    | node a b c d e =>
      simp only [predecessor, maxIv_last]
      rw [getLast?_append_ne pre (by simp [Tree.inorder])]

end Verif.Inttree
