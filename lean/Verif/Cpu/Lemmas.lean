/-
Lemmas for C72.
-/
import Verif.Cpu.Spec
import Verif.Intnum.Props
import Mathlib.Data.List.Nodup

namespace Verif.Cpu

open Verif.Intnum
open Verif.Bytecode (NopStyle)
open Verif.Match (Parser Setting lower)

/-! ### Features -/

theorem bit_shifted (k j : Nat) (hj : j < 64) : (1#64 <<< j).getLsbD k = decide (k = j) := by
  rw [BitVec.getLsbD_shiftLeft, BitVec.getLsbD_one]
  by_cases h : k = j
  · subst h; simp [hj]
  · simp only [h, decide_false]
    by_cases h1 : k < j
    · simp [h1]
    · have : k - j ≠ 0 := by omega
      simp [this]

theorem on_bit (v : Enables) (k j : Nat) (hj : j < 64) : (on v j).getLsbD k = (decide (k = j) || v.getLsbD k) := by
  unfold on
  rw [BitVec.getLsbD_or, bit_shifted k j hj, Bool.or_comm]

theorem off_bit (v : Enables) (k j : Nat) (hj : j < 64) : (off v j).getLsbD k = (!decide (k = j) && v.getLsbD k) := by
  unfold off
  by_cases hk : k < 64
  · rw [BitVec.getLsbD_and, BitVec.getLsbD_not, bit_shifted k j hj, Bool.and_comm]
    simp [hk]
  · rw [BitVec.getLsbD_of_ge _ _ (by omega), BitVec.getLsbD_of_ge _ _ (by omega), Bool.and_false]

theorem intel_table : ∀ n : Fin 20, ∀ k : Fin 64, (intel n.val).getLsbD k.val = upTo intelNews n.val k.val := by decide +kernel
theorem amd_table : ∀ n : Fin 12, ∀ k : Fin 64, (amd n.val).getLsbD k.val = upTo amdNews n.val k.val := by decide +kernel
theorem ia64_table : ∀ k : Fin 64, ia64.getLsbD k.val = ia64Has.contains k.val := by decide +kernel

/-- The numbers in the table of words. -/
def Act.inRange : Act → Bool
  | .intel n => decide (n < 20)
  | .amd n => decide (n < 12)
  | .set k | .clear k => decide (0 < k ∧ k < 64)
  | _ => true

theorem words_inRange : ∀ e ∈ cpuWords, e.2.inRange = true := by
  have h : (cpuWords.all fun e => e.2.inRange) = true := by decide +kernel
  exact List.all_eq_true.1 h

/-- A word changes what it says something about, and nothing else. -/
theorem run_says {a : Act} (ha : a.inRange = true) (s : Enables × NopStyle) {k : Nat} (hk : k < 64) :
    (a.run s).1.getLsbD k = (a.says k).getD (s.1.getLsbD k) := by
  cases a with
  | intel n => exact intel_table ⟨n, of_decide_eq_true ha⟩ ⟨k, hk⟩
  | amd n => exact amd_table ⟨n, of_decide_eq_true ha⟩ ⟨k, hk⟩
  | ia64 => exact ia64_table ⟨k, hk⟩
  | set j =>
    have hj := (of_decide_eq_true ha).2
    simp only [Act.run, Act.says]
    rw [on_bit _ _ _ hj]
    by_cases h : k = j <;> simp [h]
  | clear j =>
    have hj := (of_decide_eq_true ha).2
    simp only [Act.run, Act.says]
    rw [off_bit _ _ _ hj]
    by_cases h : k = j <;> simp [h]
  | setSse4 =>
    simp only [Act.run, Act.says]
    rw [on_bit _ _ _ (by omega), on_bit _ _ _ (by omega)]
    by_cases h : k = 31
    · simp [h]
    · by_cases h' : k = 30 <;> simp [h, h']
  | clearSse4 =>
    simp only [Act.run, Act.says]
    rw [off_bit _ _ _ (by omega), off_bit _ _ _ (by omega)]
    by_cases h : k = 31
    · simp [h]
    · by_cases h' : k = 30 <;> simp [h, h']
  | nop v => rfl

theorem run_pads (a : Act) (s : Enables × NopStyle) : (a.run s).2 = a.pads.getD s.2 := by
  cases a <;> simp only [Act.run, Act.pads, Option.getD_some, Option.getD_none]
  all_goals (split <;> split <;> first | rfl | omega)

/-! ### The table of vectors -/

/-- What holds of the table: no vector is in it twice, and the active one is in it. -/
structure Tidy (s : State) : Prop where
  distinct : s.enables.Nodup
  active : s.active < s.enables.length
  /-- Every processor is at least an 8086. -/
  base : ∀ v ∈ s.enables, v.getLsbD 0 = true

/-- A later state has the vectors of an earlier one in their places. -/
def Keeps (s t : State) : Prop := s.enables <+: t.enables

theorem Keeps.refl (s : State) : Keeps s s := List.prefix_refl _
theorem Keeps.trans {s t u : State} (h1 : Keeps s t) (h2 : Keeps t u) : Keeps s u := List.IsPrefix.trans h1 h2

theorem activate_spec {s : State} (h : Tidy s) {v : Enables} (hv : v.getLsbD 0 = true) :
    Tidy (s.activate v) ∧ Keeps s (s.activate v) ∧ (s.activate v).current = v ∧ (s.activate v).nop = s.nop ∧
      (s.activate v).unknown = s.unknown ∧ (s.activate v).errors = s.errors := by
  unfold State.activate
  split
  · next i hi =>
    obtain ⟨hlt, he, _⟩ := List.findIdx?_eq_some_iff_getElem.1 hi
    have he : s.enables[i] = v := by simpa using he
    refine ⟨⟨h.distinct, hlt, h.base⟩, Keeps.refl _, ?_, rfl, rfl, rfl⟩
    show s.enables.getD i 0 = v
    rw [List.getD_eq_getElem?_getD, List.getElem?_eq_getElem hlt, Option.getD_some, he]
  · next hi =>
    rw [List.findIdx?_eq_none_iff] at hi
    refine ⟨⟨?_, ?_, ?_⟩, List.prefix_append _ _, ?_, rfl, rfl, rfl⟩
    · show (s.enables ++ [v]).Nodup
      rw [List.nodup_append]
      refine ⟨h.distinct, by simp, ?_⟩
      intro x hx y hy e
      simp only [List.mem_singleton] at hy
      have := hi x hx
      rw [e, hy] at this
      simp at this
    · show s.enables.length < (s.enables ++ [v]).length
      simp
    · intro w hw
      rcases List.mem_append.1 hw with hw | hw
      · exact h.base w hw
      · simp only [List.mem_singleton] at hw
        rw [hw]
        exact hv
    · show (s.enables ++ [v]).getD s.enables.length 0 = v
      simp

theorem current_base {s : State} (h : Tidy s) : s.current.getLsbD 0 = true := by
  unfold State.current
  rw [List.getD_eq_getElem?_getD, List.getElem?_eq_getElem h.active, Option.getD_some]
  exact h.base _ (List.getElem_mem _)

theorem run_base {a : Act} (ha : a.inRange = true) {s : Enables × NopStyle} (hs : s.1.getLsbD 0 = true) : (a.run s).1.getLsbD 0 = true := by
  rw [run_says ha s (by omega)]
  cases a with
  | intel n => rfl
  | amd n => rfl
  | ia64 => rfl
  | set j => simp only [Act.says]; split <;> simp [hs]
  | clear j =>
    simp only [Act.says]
    have := (of_decide_eq_true ha).1
    rw [if_neg (by omega)]
    exact hs
  | setSse4 => exact hs
  | clearSse4 => exact hs
  | nop v => exact hs

/-- The words of the table are short. -/
theorem words_short : ∀ e ∈ cpuWords, e.1.toList.length ≤ 15 := by
  have h : (cpuWords.all fun e => decide (e.1.toList.length ≤ 15)) = true := by decide +kernel
  intro e he
  exact of_decide_eq_true (List.all_eq_true.1 h e he)

theorem words_distinct : (cpuWords.map fun e => e.1.toList).Nodup := by decide +kernel

/-- One word. -/
theorem parseCpu_spec {s : State} (h : Tidy s) (w : List Char) :
    Tidy (parseCpu s w) ∧ Keeps s (parseCpu s w) ∧
      (∀ k < 64, (parseCpu s w).current.getLsbD k = (lastWord (Act.says k) (known [w])).getD (s.current.getLsbD k)) ∧
      (parseCpu s w).nop = (lastWord Act.pads (known [w])).getD s.nop := by
  unfold parseCpu
  split
  · next hlen =>
    have hk : known [w] = [] := by
      unfold known
      rw [List.filterMap_cons_none, List.filterMap_nil]
      rw [Option.map_eq_none_iff, List.find?_eq_none]
      intro e he h1
      have h1 : e.1.toList = w.map lower := of_decide_eq_true h1
      have := words_short e he
      rw [h1, List.length_map] at this
      omega
    rw [hk]
    exact ⟨h, Keeps.refl _, fun k _ => rfl, rfl⟩
  · split
    · next hn =>
      have hk : known [w] = [] := by
        unfold known
        rw [List.filterMap_cons_none (by rw [hn]; rfl), List.filterMap_nil]
      rw [hk]
      exact ⟨⟨h.distinct, h.active, h.base⟩, Keeps.refl _, fun k _ => rfl, rfl⟩
    · next e hn =>
      have hk : known [w] = [e.2] := by
        unfold known
        rw [List.filterMap_cons_some (by rw [hn]; rfl), List.filterMap_nil]
      rw [hk]
      have hr := words_inRange e (List.mem_of_find?_eq_some hn)
      have ht : Tidy { s with nop := (e.2.run (s.current, s.nop)).2 } := ⟨h.distinct, h.active, h.base⟩
      obtain ⟨h1, h2, h3, h4, _⟩ := activate_spec ht (run_base hr (s := (s.current, s.nop)) (current_base h))
      refine ⟨h1, h2, fun k hk64 => ?_, ?_⟩
      · rw [h3, run_says hr _ hk64]
        show _ = (List.findSome? _ [e.2]).getD _
        cases hs : e.2.says k <;> simp [List.findSome?, hs]
      · rw [h4]
        show (e.2.run (s.current, s.nop)).2 = (List.findSome? _ [e.2]).getD _
        rw [run_pads]
        cases hs : e.2.pads <;> simp [List.findSome?, hs]

theorem lastWord_append {α : Type} (f : Act → Option α) (a b : List Act) (d : α) :
    (lastWord f (a ++ b)).getD d = (lastWord f b).getD ((lastWord f a).getD d) := by
  unfold lastWord
  rw [List.reverse_append, List.findSome?_append]
  cases List.findSome? f b.reverse <;> simp

theorem known_append (a b : List (List Char)) : known (a ++ b) = known a ++ known b := by
  unfold known
  rw [List.filterMap_append]

/-- What a number of words do. -/
structure Did (s t : State) (ws : List (List Char)) : Prop where
  tidy : Tidy t
  keeps : Keeps s t
  features : ∀ k < 64, t.current.getLsbD k = (lastWord (Act.says k) (known ws)).getD (s.current.getLsbD k)
  padding : t.nop = (lastWord Act.pads (known ws)).getD s.nop

theorem Did.none {s t : State} (h : Tidy s) (h1 : t.enables = s.enables) (h2 : t.active = s.active) (h3 : t.nop = s.nop) : Did s t [] :=
  ⟨⟨by rw [h1]; exact h.distinct, by rw [h1, h2]; exact h.active, by rw [h1]; exact h.base⟩, by unfold Keeps; rw [h1]; exact List.prefix_refl _,
    fun k _ => by unfold State.current; rw [h1, h2]; rfl, by rw [h3]; rfl⟩

theorem Did.append {s t u : State} {a b : List (List Char)} (h1 : Did s t a) (h2 : Did t u b) : Did s u (a ++ b) :=
  ⟨h2.tidy, h1.keeps.trans h2.keeps,
    fun k hk => by rw [h2.features k hk, h1.features k hk, known_append, lastWord_append],
    by rw [h2.padding, h1.padding, known_append, lastWord_append]⟩

theorem parseCpu_did {s : State} (h : Tidy s) (w : List Char) : Did s (parseCpu s w) [w] := by
  obtain ⟨h1, h2, h3, h4⟩ := parseCpu_spec h w
  exact ⟨h1, h2, h3, h4⟩

theorem cpuParam_did {s t : State} (h : Tidy s) {p : Param} (hp : cpuParam s p = some t) : Did s t p.said.toList := by
  unfold cpuParam at hp
  unfold Param.said
  split at hp
  · next w _ e =>
    injection hp with hp
    rw [e, ← hp]
    exact parseCpu_did h w
  · next e =>
    injection hp with hp
    rw [e, ← hp]
    exact Did.none h rfl rfl rfl
  · next v e =>
    split at hp
    · cases hp
    · injection hp with hp
      rw [e, ← hp]
      exact parseCpu_did h _

theorem dirCpu_did {s t : State} (h : Tidy s) {ps : List Param} (hp : dirCpu s ps = some t) : Did s t (ps.filterMap Param.said) := by
  induction ps generalizing s with
  | nil =>
    simp only [dirCpu, Option.some.injEq] at hp
    rw [← hp]
    exact Did.none h rfl rfl rfl
  | cons p ps ih =>
    simp only [dirCpu] at hp
    split at hp
    · cases hp
    · next u hu =>
      have h1 := cpuParam_did h hu
      have h2 := ih h1.tidy hp
      have : (p :: ps).filterMap Param.said = p.said.toList ++ ps.filterMap Param.said := by
        cases e : p.said with
        | none => rw [List.filterMap_cons_none e]; rfl
        | some w => rw [List.filterMap_cons_some e]; rfl
      rw [this]
      exact h1.append h2

theorem bits_same (s : State) (ps : List Param) :
    (dirBits s ps).enables = s.enables ∧ (dirBits s ps).active = s.active ∧ (dirBits s ps).nop = s.nop := by
  unfold dirBits
  cases ps with
  | nil => exact ⟨rfl, rfl, rfl⟩
  | cons p ps =>
    dsimp only
    split
    · exact ⟨rfl, rfl, rfl⟩
    · cases p.number with
      | none => exact ⟨rfl, rfl, rfl⟩
      | some v => dsimp only; split <;> exact ⟨rfl, rfl, rfl⟩

theorem step_did {s t : State} (h : Tidy s) {d : Step} (hd : step s d = some t) : Did s t d.said := by
  cases d with
  | cpu ps => exact dirCpu_did h hd
  | bits ps =>
    injection hd with hd
    rw [← hd]
    obtain ⟨h1, h2, h3⟩ := bits_same s ps
    exact Did.none h h1 h2 h3
  | code16 => injection hd with hd; rw [← hd]; exact Did.none h rfl rfl rfl
  | code32 => injection hd with hd; rw [← hd]; exact Did.none h rfl rfl rfl
  | code64 => injection hd with hd; rw [← hd]; exact Did.none h rfl rfl rfl
  | var v val =>
    injection hd with hd
    rw [← hd]
    cases v with
    | defaultRel => simp only [setVar]; split <;> exact Did.none h rfl rfl rfl
    | modeBits => exact Did.none h rfl rfl rfl
    | forceStrict => exact Did.none h rfl rfl rfl
    | gasIntel => exact Did.none h rfl rfl rfl

theorem run_did {s t : State} (h : Tidy s) {ds : List Step} (hd : run s ds = some t) : Did s t (ds.flatMap Step.said) := by
  induction ds generalizing s with
  | nil =>
    simp only [run, Option.some.injEq] at hd
    rw [← hd]
    exact Did.none h rfl rfl rfl
  | cons d ds ih =>
    simp only [run] at hd
    split at hd
    · cases hd
    · next u hu =>
      have h1 := step_did h hu
      rw [List.flatMap_cons]
      exact h1.append (ih h1.tidy hd)

theorem create_tidy (b : Bool) (n : Nat) (p : Parser) : Tidy (create b n p) :=
  ⟨by simp [create], by simp [create], by intro v hv; simp only [create, List.mem_singleton] at hv; rw [hv]; rfl⟩

end Verif.Cpu
