/-
Lemmas for C71.
-/
import Verif.Match.NameTable
import Verif.Match.NameSpec
import Verif.Match.Encoded

namespace Verif.Match

/-! ### Forms and suffixes -/

theorem Suffix.bit_inj {a b : Suffix} (h : a.bit = b.bit) : a = b := by cases a <;> cases b <;> first | rfl | cases h

theorem shifted_bit (s : Suffix) (b : Nat) : (1#6 <<< s.bit).getLsbD b = decide (s.bit = b) := by
  by_cases h : b < 6
  · revert b
    have : ∀ b : Fin 6, (1#6 <<< s.bit).getLsbD b.val = decide (s.bit = b.val) := by cases s <;> decide
    exact fun b h => this ⟨b, h⟩
  · rw [BitVec.getLsbD_of_ge _ _ (by omega), eq_comm, decide_eq_false_iff_not]
    have : s.bit < 6 := by cases s <;> decide
    omega

theorem sufBits_from (l : List Suffix) (v : BitVec 6) (b : Nat) :
    (l.foldl (fun v k => v ||| (1#6 <<< k.bit)) v).getLsbD b = (v.getLsbD b || l.any fun s => decide (s.bit = b)) := by
  induction l generalizing v with
  | nil => simp
  | cons s l ih =>
    rw [List.foldl_cons, ih, BitVec.getLsbD_or, shifted_bit, List.any_cons, Bool.or_assoc]

theorem sufBits_shared (s : Suffix) (l : List Suffix) :
    (∃ b, (sufBits [s]).getLsbD b = true ∧ (sufBits l).getLsbD b = true) ↔ s ∈ l := by
  have h0 : ∀ b, (0#6).getLsbD b = false := fun b => BitVec.getLsbD_zero
  constructor
  · rintro ⟨b, h1, h2⟩
    unfold sufBits at h1 h2
    rw [sufBits_from, h0] at h1 h2
    simp only [List.any_cons, List.any_nil, Bool.or_false, Bool.false_or, decide_eq_true_eq] at h1
    simp only [Bool.false_or, List.any_eq_true, decide_eq_true_eq] at h2
    obtain ⟨t, ht, e⟩ := h2
    rw [Suffix.bit_inj (h1.trans e.symm)]
    exact ht
  · intro h
    refine ⟨s.bit, ?_, ?_⟩
    · unfold sufBits
      rw [sufBits_from]
      simp
    · unfold sufBits
      rw [sufBits_from]
      simp only [Bool.or_eq_true, List.any_eq_true, decide_eq_true_eq]
      exact .inr ⟨s, h, rfl⟩

/-- What a form has from the call it comes from. -/
theorem form_of {r : RawForm} {f : Form} (h : r.form = some f) :
    f.gasOnly = !r.nasm ∧ f.gasIllegal = !r.gas ∧ f.suffixes = sufBits (r.sufs.getD []) ∧ f.only64 = r.flags.1 ∧ f.not64 = r.not64 ∧
      f.cpu = (r.flags.2 ++ [0, 0, 0]).take 3 ∧ r.flags.2.length ≤ 3 := by
  unfold RawForm.form at h
  split at h
  · cases h
  · split at h
    · cases h
    · next hl =>
      injection h with h
      subst h
      exact ⟨rfl, rfl, rfl, rfl, rfl, rfl, by omega⟩

/-- What an entry has from the call it comes from. -/
theorem entry_of {p : Dialect} {n : RawInsn} {g : List RawForm} {k : Keyword} (h : k ∈ keywords p n g) :
    k.group = g ∧ k.only64 = autoFlag p n k.suffix g n.only64 (fun r => r.flags.1) ∧
      k.not64 = autoFlag p n k.suffix g n.not64 (fun r => r.not64) ∧ k.cpu = autoCpu p n k.suffix g ∧ n.has p = true ∧
      (p = .nasm → k.suffix = n.suffix) ∧ (p = .gas → k.suffix.isSome = true) := by
  unfold keywords at h
  split at h
  · next hh =>
    have hp : n.has p = true := by
      rw [Bool.and_eq_true] at hh
      exact hh.1
    cases p with
    | nasm =>
      simp only [List.mem_singleton] at h
      subst h
      exact ⟨rfl, rfl, rfl, rfl, hp, fun _ => rfl, fun h => by cases h⟩
    | gas =>
      simp only [List.mem_map] at h
      obtain ⟨t, _, e⟩ := h
      subst e
      refine ⟨rfl, rfl, rfl, rfl, hp, (fun h => by cases h), fun _ => ?_⟩
      show (if n.suffix.isSome = true then n.suffix else some t).isSome = true
      split
      · assumption
      · rfl
  · cases h

/-- The forms a name stands for are those that can be written with it. -/
theorem applies_iff {n : RawInsn} (hn : n ∈ names) {a : Setting} {k : Keyword} (hk : k ∈ keywords a.parser.dialect n (groups.getD n.group []))
    {r : RawForm} {f : Form} (hf : r.form = some f) : applies a.parser.dialect k.suffix r = true ↔ Writable k a.parser f := by
  obtain ⟨_, _, _, _, hp, hs, hg⟩ := entry_of hk
  obtain ⟨f1, f2, f3, _⟩ := form_of hf
  unfold Writable applies
  have nasm : a.parser.dialect = .nasm → ((r.has .nasm && match k.suffix with
      | none => true
      | some s => (r.sufs.getD []).contains s) = true ↔ f.gasOnly = false) := by
    intro e
    have hk : k.suffix = none := by
      rw [hs e]
      have hc := names_checked n hn
      unfold nameChecked at hc
      simp only [Bool.and_eq_true, Bool.or_eq_true, Bool.not_eq_true'] at hc
      obtain ⟨⟨⟨_, hc⟩, _⟩, _⟩ := hc
      rcases hc with hc | hc
      · rw [e] at hp
        unfold RawInsn.has at hp
        rw [hc] at hp
        split at hp
        · cases hp
        · simpa using hp
      · simpa using hc
    rw [hk, f1]
    show (r.nasm && true) = true ↔ _
    cases r.nasm <;> simp
  cases hpar : a.parser with
  | gas =>
    rw [hpar] at hg
    obtain ⟨s, e⟩ := Option.isSome_iff_exists.1 (hg rfl)
    rw [if_pos rfl, f2, f3]
    unfold Keyword.suffixBits
    rw [e, Option.getD_some, sufBits_shared]
    show (r.gas && (r.sufs.getD []).contains s) = true ↔ _
    simp
  | nasm =>
    rw [hpar] at nasm
    rw [if_neg (by simp)]
    exact nasm rfl
  | tasm =>
    rw [hpar] at nasm
    rw [if_neg (by simp)]
    exact nasm rfl

/-- A flag that comes from the forms: all of those that can be written have it. -/
theorem autoFlag_iff {n : RawInsn} (hn : n ∈ names) (plain : n.flagged = false) {a : Setting} {k : Keyword}
    (hk : k ∈ keywords a.parser.dialect n (groups.getD n.group [])) (own : Bool) (flag : RawForm → Bool) (of : Form → Bool)
    (hof : ∀ r f, r.form = some f → of f = flag r) :
    autoFlag a.parser.dialect n k.suffix (groups.getD n.group []) own flag = true ↔
      ∀ f ∈ (k.insn a).group, Writable k a.parser f → of f = true := by
  obtain ⟨hg, _⟩ := entry_of hk
  have hc := names_checked n hn
  unfold nameChecked at hc
  simp only [Bool.and_eq_true, List.all_eq_true, List.any_eq_true] at hc
  obtain ⟨⟨⟨made, _⟩, _⟩, some⟩ := hc
  have made := fun r hr => (made r hr).1
  obtain ⟨⟨⟨r0, hr0, ha0⟩, _⟩, _⟩ := some a.parser.dialect (by cases a.parser <;> simp [Parser.dialect]) k hk
  have hgroup : (k.insn a).group = (groups.getD n.group []).filterMap RawForm.form := by
    show k.group.filterMap _ = _
    rw [hg]
  rw [hgroup]
  have key : autoFlag a.parser.dialect n k.suffix (groups.getD n.group []) own flag =
      ((groups.getD n.group []).filter (applies a.parser.dialect k.suffix)).all flag := by
    have hne : (groups.getD n.group []).filter (applies a.parser.dialect k.suffix) ≠ [] := by
      intro e
      have : r0 ∈ (groups.getD n.group []).filter (applies a.parser.dialect k.suffix) := List.mem_filter.2 ⟨hr0, ha0⟩
      rw [e] at this
      cases this
    unfold autoFlag
    rw [plain, if_neg (by simp)]
    generalize (groups.getD n.group []).filter (applies a.parser.dialect k.suffix) = l at hne
    cases l with
    | nil => exact absurd rfl hne
    | cons => rfl
  rw [key, List.all_eq_true]
  constructor
  · intro h f hf hw
    obtain ⟨r, hr, e⟩ := List.mem_filterMap.1 hf
    rw [hof r f e]
    exact h r (List.mem_filter.2 ⟨hr, (applies_iff hn hk e).2 hw⟩)
  · intro h r hr
    obtain ⟨hr, ha⟩ := List.mem_filter.1 hr
    obtain ⟨f, e⟩ := Option.isSome_iff_exists.1 (made r hr)
    rw [← hof r f e]
    exact h f (List.mem_filterMap.2 ⟨r, hr, e⟩) ((applies_iff hn hk e).1 ha)

/-! ### Processors -/

theorem lowest_mem {table s : List Nat} {k : Nat} (h : lowest table s = some k) : k ∈ s := by
  unfold lowest at h
  have := List.find?_some h
  simpa using this

theorem cpuLcd_sub {a b : List Nat} {S : Nat → Prop} (ha : ∀ k ∈ a, S k) (hb : ∀ k ∈ b, S k) : ∀ k ∈ cpuLcd a b, S k := by
  intro k hk
  unfold cpuLcd at hk
  simp only [List.mem_append, List.mem_filter, Bool.and_eq_true, List.contains_iff_mem] at hk
  have hr : ∀ k ∈ (if (lowest orderedCpus a).getD 0 = 0 then [] else [(lowest orderedCpus a).getD 0]), S k := by
    intro k hk
    split at hk
    · cases hk
    · next hne =>
      simp only [List.mem_singleton] at hk
      cases hl : lowest orderedCpus a with
      | none => rw [hl] at hne; exact absurd rfl hne
      | some v =>
        rw [hl] at hk
        rw [hk]
        exact ha _ (lowest_mem hl)
  generalize (if (lowest orderedCpus a).getD 0 = 0 then [] else [(lowest orderedCpus a).getD 0]) = low at hk hr
  rcases hk with hk | ⟨_, hk, _⟩
  · split at hk
    · next i j hi hj =>
      unfold addTo at hk
      have hij : ∀ k, k = (if orderedFeatures.idxOf i ≤ orderedFeatures.idxOf j then i else j) → S k := by
        intro k e
        split at e
        · rw [e]; exact ha _ (lowest_mem hi)
        · rw [e]; exact hb _ (lowest_mem hj)
      generalize (if orderedFeatures.idxOf i ≤ orderedFeatures.idxOf j then i else j) = m at hk hij
      split at hk
      · exact hr k hk
      · rcases List.mem_append.1 hk with hk | hk
        · exact hr k hk
        · simp only [List.mem_singleton] at hk
          exact hij k hk
    · exact hr k hk
  · exact ha k hk

theorem cpuLcd_fold {l : List RawForm} {a : List Nat} {S : Nat → Prop} (ha : ∀ k ∈ a, S k) (hl : ∀ r ∈ l, ∀ k ∈ r.flags.2, S k) :
    ∀ k ∈ l.foldl (fun a r => cpuLcd a r.flags.2) a, S k := by
  induction l generalizing a with
  | nil => exact ha
  | cons r l ih => exact ih (cpuLcd_sub ha (hl r (by simp))) (fun q hq => hl q (by simp [hq]))

end Verif.Match
