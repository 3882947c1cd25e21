import Verif.Bin.Place
/-
Lemmas on the file that is written.
-/
set_option linter.unusedSimpArgs false
set_option linter.unusedVariables false
namespace Verif.Bin

theorem write_getElem? (f : File) (l : List Byte) (k : Nat) : (f.write l).data[k]?.getD 0#8 =
    if f.pos ≤ k ∧ k < f.pos + l.length then l[k - f.pos]?.getD 0#8 else f.data[k]?.getD 0#8 := by
  unfold File.write
  by_cases h0 : l.length = 0
  · rw [if_pos h0, if_neg (by omega)]
  · rw [if_neg h0]
    simp only
    have e : (f.data.take f.pos ++ List.replicate (f.pos - f.data.length) 0#8).length = f.pos := by
      simp; omega
    by_cases h1 : k < f.pos
    · rw [if_neg (by omega), List.append_assoc, List.getElem?_append_left (by rw [e]; exact h1)]
      by_cases h2 : k < f.data.length
      · rw [List.getElem?_append_left (by simp; omega), List.getElem?_take_of_lt h1]
      · rw [List.getElem?_append_right (by simp; omega), List.getElem?_eq_none (l := f.data) (by omega)]
        rw [List.getElem?_replicate]; split <;> rfl
    · rw [List.append_assoc, List.getElem?_append_right (by rw [e]; omega), e]
      by_cases h2 : k < f.pos + l.length
      · rw [if_pos ⟨by omega, h2⟩, List.getElem?_append_left (by omega)]
      · rw [if_neg (by omega), List.getElem?_append_right (by omega), List.getElem?_drop]
        congr 2; omega

theorem write_length (f : File) (l : List Byte) : (f.write l).data.length =
    if l.length = 0 then f.data.length else max f.data.length (f.pos + l.length) := by
  unfold File.write
  split
  · rfl
  · simp; omega

theorem write_pos (f : File) (l : List Byte) : (f.write l).pos = f.pos + l.length := by
  unfold File.write
  split
  · omega
  · rfl

theorem ext_getD {a b : List Byte} (h1 : a.length = b.length)
    (h2 : ∀ k : Nat, a[k]?.getD 0#8 = b[k]?.getD 0#8) : a = b := by
  apply List.ext_getElem h1
  intro i ha hb
  have := h2 i
  rw [List.getElem?_eq_getElem ha, List.getElem?_eq_getElem hb] at this
  simpa using this

theorem write_write (f : File) (a b : List Byte) : (f.write a).write b = f.write (a ++ b) := by
  have hd : ((f.write a).write b).data = (f.write (a ++ b)).data := by
    apply ext_getD
    · simp only [write_length, write_pos, List.length_append]
      split <;> split <;> split <;> omega
    · intro k
      simp only [write_getElem?, write_pos, List.length_append]
      by_cases h1 : f.pos + a.length ≤ k ∧ k < f.pos + a.length + b.length
      · rw [if_pos h1, if_pos (by omega), List.getElem?_append_right (by omega)]
        congr 2; omega
      · rw [if_neg h1]
        by_cases h2 : f.pos ≤ k ∧ k < f.pos + a.length
        · rw [if_pos h2, if_pos (by omega), List.getElem?_append_left (by omega)]
        · rw [if_neg h2, if_neg (by omega)]
  have hp : ((f.write a).write b).pos = (f.write (a ++ b)).pos := by
    simp only [write_pos, List.length_append]; omega
  cases h1 : (f.write a).write b
  cases h2 : f.write (a ++ b)
  rw [h1, h2] at hd hp
  simp at hd hp
  rw [hd, hp]

theorem foldl_write (bs : List (List Byte)) : ∀ f : File, (bs.foldl File.write f) = f.write bs.flatten := by
  induction bs with
  | nil => intro f; simp [File.write]
  | cons b bs ih => intro f; simp only [List.foldl_cons, List.flatten_cons]; rw [ih, write_write]

theorem outbufSize_pos : 0 < outbufSize := by decide

attribute [local irreducible] outbufSize

theorem zeroChunks_flatten (n : Nat) : (zeroChunks n).flatten = List.replicate n 0#8 := by
  induction n using Nat.strongRecOn with
  | ind n ih =>
    unfold zeroChunks
    split
    · rename_i h
      rw [List.flatten_cons, ih (n - outbufSize) (by have := outbufSize_pos; omega), ← List.replicate_add]
      congr 1; omega
    · simp

theorem blocks_contents (s : Sect) : (s.pieces.flatMap pieceBlocks).flatten = contents s := by
  unfold contents
  induction s.pieces with
  | nil => rfl
  | cons p l ih =>
    rw [List.flatMap_cons, List.flatMap_cons, List.flatten_append, ih]
    congr 1
    cases p with
    | bytes b =>
      simp only [pieceBlocks]
      split
      · rename_i h; simp [List.length_eq_zero_iff.1 h]
      · simp
    | gap n =>
      simp only [pieceBlocks]
      split
      · rename_i h; simp [h]
      · exact zeroChunks_flatten n

/-- A section whose bytes go into the file. -/
def Has (origin : Int) (p : Placed) (k : Nat) : Prop :=
  p.sect.bss = false ∧ p.istart - origin ≤ k ∧ (k : Int) < p.istart - origin + p.sect.length

/-- What the output loop maintains. -/
structure ImageInv (origin : Int) (done : List Placed) (data : List Byte) : Prop where
  covered : ∀ p ∈ done, ∀ k, Has origin p k →
    data[k]?.getD 0#8 = (contents p.sect)[k - (p.istart - origin).toNat]?.getD 0#8 ∧ k < data.length
  empty : ∀ k, (∀ p ∈ done, ¬ Has origin p k) → data[k]?.getD 0#8 = 0#8
  ends : ∀ k, k < data.length → ∃ p ∈ done, ∃ k', k ≤ k' ∧ Has origin p k'

/-- A section the loop writes where it should. -/
def Regular (origin : Int) (p : Placed) : Prop :=
  p.sect.bss = false → 0 ≤ p.istart - origin ∧ p.istart - origin < 2 ^ 31

theorem output_step {maxSeek : Nat} {origin : Int} {done : List Placed} {p : Placed} {f : File}
    {errs : List OutErr} {o : Out}
    (hi : ImageInv origin done f.data) (hl : (contents p.sect).length = p.sect.length)
    (hr : Regular origin p) (hdis : ∀ q ∈ done, ∀ k, ¬ (Has origin p k ∧ Has origin q k))
    (h : outputSection maxSeek origin p (.going f errs) = o) (hf : o ≠ .fatal) :
    ∃ f', o = .going f' errs ∧ ImageInv origin (done ++ [p]) f'.data := by
  simp only [outputSection] at h
  by_cases hb : p.sect.bss = true
  · rw [if_pos hb] at h
    refine ⟨f, h.symm, ?_⟩
    have hno : ∀ k, ¬ Has origin p k := by intro k hk; rw [hk.1] at hb; cases hb
    constructor
    · intro q hq k hk
      rcases List.mem_append.1 hq with hq | hq
      · exact hi.covered q hq k hk
      · rw [List.mem_singleton] at hq; subst hq; exact absurd hk (hno k)
    · intro k hk; exact hi.empty k (fun q hq => hk q (by simp [hq]))
    · intro k hk
      obtain ⟨q, hq, r⟩ := hi.ends k hk
      exact ⟨q, by simp [hq], r⟩
  · have hb' : p.sect.bss = false := by simpa using hb
    obtain ⟨h0, h1⟩ := hr hb'
    rw [if_neg hb, if_neg (by omega), if_neg (by omega)] at h
    split at h
    · exact absurd h.symm hf
    · have hseek : seekTo (p.istart - origin) = p.istart - origin := by unfold seekTo; rw [if_pos h1]
      rw [hseek, foldl_write, blocks_contents] at h
      refine ⟨_, h.symm, ?_⟩
      generalize ho : (p.istart - origin).toNat = off
      have ho' : (off : Int) = p.istart - origin := by omega
      have has_iff : ∀ k, Has origin p k ↔ off ≤ k ∧ k < off + (contents p.sect).length := by
        intro k; unfold Has; rw [hl]; constructor
        · rintro ⟨_, a, b⟩; omega
        · rintro ⟨a, b⟩; exact ⟨hb', by omega, by omega⟩
      constructor
      · intro q hq k hk
        rw [write_getElem?, write_length]
        simp only
        rcases List.mem_append.1 hq with hq | hq
        · have hnk : ¬ Has origin p k := fun c => hdis q hq k ⟨c, hk⟩
          rw [if_neg (fun c => hnk ((has_iff k).2 c))]
          obtain ⟨c1, c2⟩ := hi.covered q hq k hk
          refine ⟨c1, ?_⟩
          split <;> omega
        · rw [List.mem_singleton] at hq
          subst hq
          have := (has_iff k).1 hk
          rw [if_pos this, ho]
          refine ⟨rfl, ?_⟩
          rw [if_neg (by omega)]; omega
      · intro k hk
        rw [write_getElem?]
        simp only
        rw [if_neg (fun c => hk p (by simp) ((has_iff k).2 c))]
        exact hi.empty k (fun q hq => hk q (by simp [hq]))
      · intro k hk
        rw [write_length] at hk
        simp only at hk
        by_cases hk' : k < f.data.length
        · obtain ⟨q, hq, r⟩ := hi.ends k hk'
          exact ⟨q, by simp [hq], r⟩
        · split at hk
          · omega
          · refine ⟨p, by simp, off + (contents p.sect).length - 1, by omega, ?_⟩
            rw [has_iff]; omega

theorem foldl_fatal (maxSeek : Nat) (origin : Int) (l : List Placed) :
    l.foldl (fun o p => outputSection maxSeek origin p o) .fatal = .fatal := by
  induction l with
  | nil => rfl
  | cons p l ih => simp only [List.foldl_cons, outputSection]; exact ih

theorem outputAll_image {maxSeek : Nat} {origin : Int} : ∀ (todo done : List Placed) (f f' : File)
    (errs errs' : List OutErr), ImageInv origin done f.data →
    (∀ p ∈ todo, (contents p.sect).length = p.sect.length ∧ Regular origin p) →
    (∀ p ∈ todo, ∀ q ∈ done, ∀ k, ¬ (Has origin p k ∧ Has origin q k)) →
    todo.Pairwise (fun p q => ∀ k, ¬ (Has origin p k ∧ Has origin q k)) →
    todo.foldl (fun o p => outputSection maxSeek origin p o) (.going f errs) = .going f' errs' →
    ImageInv origin (done ++ todo) f'.data ∧ errs' = errs := by
  intro todo
  induction todo with
  | nil => intro done f f' errs errs' hi _ _ _ h; cases h; exact ⟨by simpa using hi, rfl⟩
  | cons p todo ih =>
    intro done f f' errs errs' hi hreg hdis hpair h
    simp only [List.foldl_cons] at h
    rcases ho : outputSection maxSeek origin p (.going f errs) with ⟨f1, e1⟩ | _
    · obtain ⟨f2, e2, hi2⟩ := output_step hi (hreg p (by simp)).1 (hreg p (by simp)).2
        (fun q hq k => hdis p (by simp) q hq k) ho (by simp)
      cases e2
      rw [ho] at h
      have hp := List.pairwise_cons.1 hpair
      have := ih (done ++ [p]) f1 f' errs errs' hi2 (fun q hq => hreg q (by simp [hq])) (by
        intro q hq r hr k hk
        rcases List.mem_append.1 hr with hr | hr
        · exact hdis q (by simp [hq]) r hr k hk
        · rw [List.mem_singleton] at hr; subst hr
          exact hp.1 q hq k ⟨hk.2, hk.1⟩) hp.2 h
      simpa using this
    · rw [ho, foldl_fatal] at h; cases h

/-- Without errors every section of the list starts at or after the origin. -/
theorem outputSection_errs {maxSeek : Nat} {origin : Int} {p : Placed} {f : File} {errs : List OutErr} {f' : File}
    {errs' : List OutErr} (h : outputSection maxSeek origin p (.going f errs) = .going f' errs') :
    (∃ e, errs' = errs ++ e) ∧ (errs' = errs → p.sect.bss = false → 0 ≤ p.istart - origin ∧ p.istart - origin < 2 ^ 63) := by
  simp only [outputSection] at h
  split at h
  · rename_i hb
    cases h
    exact ⟨⟨[], by simp⟩, fun _ c => by rw [c] at hb; cases hb⟩
  · split at h
    · cases h; exact ⟨⟨_, rfl⟩, fun c => by simp at c⟩
    · split at h
      · cases h; exact ⟨⟨_, rfl⟩, fun c => by simp at c⟩
      · split at h
        · cases h
        · cases h; exact ⟨⟨[], by simp⟩, fun _ _ => ⟨by omega, by omega⟩⟩

theorem outputAll_errs {maxSeek : Nat} {origin : Int} : ∀ (l : List Placed) (f f' : File) (errs errs' : List OutErr),
    l.foldl (fun o p => outputSection maxSeek origin p o) (.going f errs) = .going f' errs' →
    (∃ e, errs' = errs ++ e) ∧
    (errs' = errs → ∀ p ∈ l, p.sect.bss = false → 0 ≤ p.istart - origin ∧ p.istart - origin < 2 ^ 63) := by
  intro l
  induction l with
  | nil => intro f f' errs errs' h; cases h; exact ⟨⟨[], by simp⟩, by intro _ p hp; cases hp⟩
  | cons p l ih =>
    intro f f' errs errs' h
    simp only [List.foldl_cons] at h
    rcases ho : outputSection maxSeek origin p (.going f errs) with ⟨f1, e1⟩ | _
    · rw [ho] at h
      obtain ⟨⟨x, hx⟩, h1⟩ := outputSection_errs ho
      obtain ⟨⟨y, hy⟩, h2⟩ := ih f1 f' e1 errs' h
      refine ⟨⟨x ++ y, by rw [hy, hx]; simp⟩, ?_⟩
      intro e
      have hxy : x = [] ∧ y = [] := by
        rw [hy, hx, List.append_assoc] at e
        have := List.append_right_eq_self.1 e
        exact List.append_eq_nil_iff.1 this
      intro q hq
      rcases List.mem_cons.1 hq with hq | hq
      · subst hq; exact h1 (by rw [hx, hxy.1]; simp)
      · exact h2 (by rw [hy, hxy.2]; simp) q hq
    · rw [ho, foldl_fatal] at h; cases h

/-! ### overlaps -/

theorem overlaps_iff (a b : Placed) : overlaps a b = true ↔
    a.sect.name ≠ b.sect.name ∧ ¬ Disjoint a b := by
  unfold overlaps Disjoint
  by_cases hn : a.sect.name = b.sect.name
  · rw [if_pos hn]; simp [hn]
  · rw [if_neg hn]
    by_cases h0 : a.sect.length = 0 ∨ b.sect.length = 0
    · rw [if_pos h0]
      simp only [Bool.false_eq_true, false_iff, not_and, not_not]
      intro _ x; omega
    · rw [if_neg h0, decide_eq_true_iff]
      unfold overlapBy
      constructor
      · intro h
        refine ⟨hn, fun c => ?_⟩
        split at h
        · exact c b.istart ⟨⟨by omega, by omega⟩, ⟨by omega, by omega⟩⟩
        · exact c a.istart ⟨⟨by omega, by omega⟩, ⟨by omega, by omega⟩⟩
      · rintro ⟨_, h⟩
        by_contra hc
        apply h
        intro x hx
        split at hc <;> omega

theorem overlapFound_iff (l : List Placed) : overlapFound l = true ↔
    ∃ p ∈ l, ∃ q ∈ l, p.sect.name ≠ q.sect.name ∧ ¬ Disjoint p q := by
  unfold overlapFound
  simp only [List.any_eq_true, overlaps_iff]
  constructor
  · rintro ⟨a, ha, b, hb, h⟩; exact ⟨b, hb, a, ha, h⟩
  · rintro ⟨a, ha, b, hb, h⟩; exact ⟨b, hb, a, ha, h⟩

theorem inOrder_sects {sects : List Sect} {l : List Placed} (hn : (sects.map (·.name)).Nodup)
    (h : (l.map (·.sect)).Perm sects) : (inOrder sects l).map (·.sect) = sects ∧
      ∀ p, p ∈ inOrder sects l ↔ p ∈ l := by
  have hfind : ∀ s ∈ sects, ∃ p ∈ l, p.sect = s ∧ l.find? (fun p => p.sect.name = s.name) = some p := by
    intro s hs
    obtain ⟨p, hp, e⟩ := List.mem_map.1 (h.mem_iff.2 hs)
    refine ⟨p, hp, e, ?_⟩
    rcases hf : l.find? (fun p => p.sect.name = s.name) with _ | q
    · have := List.find?_eq_none.1 hf p hp; simp [e] at this
    · have h1 := List.find?_some hf
      have h2 := List.mem_of_find?_eq_some hf
      have : q = p := inj_placed hn h h2 hp (by rw [e]; simpa using h1)
      subst this; exact hf
  have hmap : ∀ (k : List Sect), (∀ s ∈ k, s ∈ sects) →
      (k.filterMap fun s => l.find? (fun p => p.sect.name = s.name)).map (·.sect) = k := by
    intro k
    induction k with
    | nil => intro _; rfl
    | cons s k ih =>
      intro hk
      obtain ⟨p, _, e, hf⟩ := hfind s (hk s (by simp))
      rw [List.filterMap_cons, hf]
      simp only [List.map_cons, e]
      rw [ih (fun x hx => hk x (by simp [hx]))]
  refine ⟨hmap sects (fun s hs => hs), ?_⟩
  intro p
  unfold inOrder
  rw [List.mem_filterMap]
  constructor
  · rintro ⟨s, _, hf⟩; exact List.mem_of_find?_eq_some hf
  · intro hp
    have hs : p.sect ∈ sects := h.mem_iff.1 (List.mem_map_of_mem hp)
    obtain ⟨q, hq, e, hf⟩ := hfind p.sect hs
    refine ⟨p.sect, hs, ?_⟩
    have : q = p := inj_placed hn h hq hp (by rw [e])
    rw [hf, this]

end Verif.Bin
