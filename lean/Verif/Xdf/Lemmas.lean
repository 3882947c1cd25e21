import Verif.Xdf.Spec
import Verif.Coff.Bytes
/-
The parts of an XDF file are where they are looked for.
-/
set_option linter.unusedSimpArgs false
namespace Verif.Xdf
open Verif.Elf (Byte Name Num slice field string le At le_length)
open Verif.Coff (getUint string_read)

/-! ### Tables -/

theorem at_flat {α : Type} (g : α → List Byte) (c : Nat) (hc : ∀ x, (g x).length = c) : ∀ (l : List α) (j : Nat) (x : α), l[j]? = some x →
    At (l.flatMap g) (c * j) (g x)
  | [], _, _, h => by simp at h
  | a :: l, 0, x, h => by
    simp only [List.getElem?_cons_zero, Option.some.injEq] at h
    subst h
    exact ⟨[], l.flatMap g, by simp, rfl⟩
  | a :: l, j + 1, x, h => by
    simp only [List.getElem?_cons_succ] at h
    have := (at_flat g c hc l j x h).append_left (g a)
    rw [hc, show c + c * j = c * (j + 1) by rw [Nat.mul_succ]; omega] at this
    simpa using this

theorem flat_length {α : Type} (g : α → List Byte) (c : Nat) (hc : ∀ x, (g x).length = c) (l : List α) : (l.flatMap g).length = c * l.length := by
  induction l with
  | nil => simp
  | cons a l ih => simp only [List.flatMap_cons, List.length_append, hc, ih, List.length_cons, Nat.mul_succ]; omega

theorem symBytes_length (s : Sym) (str : Nat) : (symBytes s str).length = 16 := by simp [symBytes, le_length]
theorem relocBytes_length (o : Obj) (r : Reloc) : (relocBytes o r).length = 16 := by simp [relocBytes, le_length]
theorem headBytes_length (o : Obj) (p : Sect × Head) : (headBytes o p).length = 40 := by
  unfold headBytes physical virtual le8
  rcases p.1.addr with _ | a <;> rcases p.1.vaddr with _ | b <;> simp [le_length]

theorem symsBytes_length (o : Obj) (str : Nat) (l : List Sym) : (symsBytes o str l).length = 16 * l.length := by
  induction l generalizing str with
  | nil => rfl
  | cons s l ih => simp only [symsBytes, List.length_append, symBytes_length, ih, List.length_cons]; omega

/-- A symbol and its name. -/
theorem at_sym (o : Obj) : ∀ (l : List Sym) (str j : Nat) (s : Sym), l[j]? = some s → ∃ q, At (symsBytes o str l) (16 * j) (symBytes s (str + q)) ∧
    At (strsBytes o l) q (o.globalName s ++ [0])
  | [], _, _, _, h => by simp at h
  | a :: l, str, 0, s, h => by
    simp only [List.getElem?_cons_zero, Option.some.injEq] at h
    subst h
    exact ⟨0, ⟨[], symsBytes o (str + ((o.globalName a).length + 1)) l, by simp [symsBytes], rfl⟩, ⟨[], strsBytes o l, by simp [strsBytes], rfl⟩⟩
  | a :: l, str, j + 1, s, h => by
    simp only [List.getElem?_cons_succ] at h
    obtain ⟨q, h1, h2⟩ := at_sym o l (str + ((o.globalName a).length + 1)) j s h
    refine ⟨(o.globalName a).length + 1 + q, ?_, ?_⟩
    · have := h1.append_left (symBytes a str)
      rw [symBytes_length] at this
      rw [show 16 * (j + 1) = 16 + 16 * j by omega, show str + ((o.globalName a).length + 1 + q) = str + ((o.globalName a).length + 1) + q by omega]
      exact this
    · have := h2.append_left (o.globalName a ++ [0])
      simpa [strsBytes] using this

/-! ### Indexes -/

theorem countSyms_ok (l : List Sym) (hc : ∀ s ∈ l, s.tabled = true → s.common = false) (i : Nat) :
    (countSyms i l).2 = i + (l.filter (·.tabled)).length ∧
    ∀ n s, l[n]? = some s → s.tabled = true → (countSyms i l).1[n]? = some (some (i + ((l.take n).filter (·.tabled)).length)) := by
  induction l generalizing i with
  | nil => exact ⟨rfl, fun n s h => by simp at h⟩
  | cons a l ih =>
    have hl := ih (fun s hs => hc s (List.mem_cons_of_mem _ hs))
    unfold countSyms
    rcases ht : a.tabled with _ | _
    · simp only [Bool.false_and, Bool.false_eq_true, if_false]
      refine ⟨by rw [(hl i).1, List.filter_cons_of_neg (by simp [ht])], fun n s hn hs => ?_⟩
      rcases n with _ | n
      · simp only [List.getElem?_cons_zero, Option.some.injEq] at hn
        rw [← hn, ht] at hs
        cases hs
      · simp only [List.getElem?_cons_succ] at hn ⊢
        rw [(hl i).2 n s hn hs, List.take_succ_cons, List.filter_cons_of_neg (by simp [ht])]
    · simp only [hc a (by simp) ht, Bool.not_false, Bool.and_true, if_true]
      refine ⟨by rw [(hl (i + 1)).1, List.filter_cons_of_pos (by simp [ht]), List.length_cons]; omega, fun n s hn hs => ?_⟩
      rcases n with _ | n
      · simp
      · simp only [List.getElem?_cons_succ] at hn ⊢
        rw [(hl (i + 1)).2 n s hn hs, List.take_succ_cons, List.filter_cons_of_pos (by simp [ht]), List.length_cons]
        congr 2
        omega

theorem count_eq {o : Obj} (ho : ObjOk o) : o.count = o.listed.length := by
  have := (countSyms_ok o.syms (fun s hs ht => (ho.syms s hs ht).common) 0).1
  rw [Nat.zero_add] at this
  exact this

theorem data_eq {o : Obj} (ho : ObjOk o) {n : Nat} {s : Sym} (hn : o.syms[n]? = some s) (ht : s.tabled = true) : o.data n = some (o.index n) := by
  unfold Obj.data
  rw [(countSyms_ok o.syms (fun s hs ht => (ho.syms s hs ht).common) 0).2 n s hn ht, Nat.zero_add]
  rfl

/-- The symbol with an index. -/
theorem index_get (l : List Sym) {n : Nat} {s : Sym} (hn : l[n]? = some s) (ht : s.tabled = true) :
    (l.filter (·.tabled))[((l.take n).filter (·.tabled)).length]? = some s := by
  induction l generalizing n with
  | nil => simp at hn
  | cons a l ih =>
    rcases n with _ | n
    · simp only [List.getElem?_cons_zero, Option.some.injEq] at hn
      subst hn
      simp [ht]
    · simp only [List.getElem?_cons_succ] at hn
      rcases ha : a.tabled with _ | _
      · rw [List.take_succ_cons, List.filter_cons_of_neg (by simp [ha]), List.filter_cons_of_neg (by simp [ha])]
        exact ih hn
      · rw [List.take_succ_cons, List.filter_cons_of_pos (by simp [ha]), List.filter_cons_of_pos (by simp [ha])]
        simpa using ih hn

/-! ### Sections -/

/-- Where a section is in what is written from `pos` on. -/
structure Placed (o : Obj) (pos : Nat) (bs : List Byte) (s : Sect) (h : Head) : Prop where
  size : h.size = s.length
  data : s.bss = false → s.length ≠ 0 → ∃ q, h.ptr = pos + q ∧ At bs q s.written ∧ s.written.length = s.length
  none : (s.bss = true ∨ s.length = 0) → h.ptr = 0 ∧ h.relptr = 0
  bss : s.bss = true → h.nreloc = 0
  count : s.bss = false → h.nreloc = s.relocs.length
  rels : s.bss = false → s.length ≠ 0 → s.relocs ≠ [] → ∃ q, h.relptr = pos + q ∧ At bs q (s.relocs.flatMap (relocBytes o))
  norels : s.relocs = [] → h.relptr = 0

theorem Placed.right {o pos bs s h} (p : Placed o pos bs s h) (rest : List Byte) : Placed o pos (bs ++ rest) s h where
  size := p.size
  data h1 h2 := (p.data h1 h2).imp fun _ ⟨a, b, c⟩ => ⟨a, b.append_right rest, c⟩
  none := p.none
  bss := p.bss
  count := p.count
  rels h1 h2 h3 := (p.rels h1 h2 h3).imp fun _ ⟨a, b⟩ => ⟨a, b.append_right rest⟩
  norels := p.norels

theorem Placed.left {o pos bs s h} (front : List Byte) (p : Placed o (pos + front.length) bs s h) : Placed o pos (front ++ bs) s h where
  size := p.size
  data h1 h2 := by
    obtain ⟨q, a, b, c⟩ := p.data h1 h2
    exact ⟨front.length + q, by omega, b.append_left front, c⟩
  none := p.none
  bss := p.bss
  count := p.count
  rels h1 h2 h3 := by
    obtain ⟨q, a, b⟩ := p.rels h1 h2 h3
    exact ⟨front.length + q, by omega, b.append_left front⟩
  norels := p.norels

theorem outSect_placed {o pos s h bs} (e : outSect o pos s = some (h, bs)) : Placed o pos bs s h := by
  unfold outSect at e
  split at e
  · rename_i hb
    cases e
    exact ⟨rfl, fun h => (by rw [hb] at h; cases h), fun _ => ⟨rfl, rfl⟩, fun _ => rfl, fun h => (by rw [hb] at h; cases h),
      fun h => (by rw [hb] at h; cases h), fun _ => rfl⟩
  · rename_i hb
    have hb : s.bss = false := by simpa using hb
    split at e
    · cases e
    · rename_i hl
      have hl : s.written.length = s.length := by simpa using hl
      split at e
      · rename_i h0
        cases e
        exact ⟨h0.symm, fun _ h => absurd h0 h, fun _ => ⟨rfl, rfl⟩, fun h => (by rw [hb] at h; cases h), fun _ => rfl, fun _ h => absurd h0 h,
          fun _ => rfl⟩
      · rename_i h0
        have hnone : (s.bss = true ∨ s.length = 0) → False := by
          rintro (h | h)
          · rw [hb] at h; cases h
          · exact h0 h
        split at e
        · rename_i hr
          cases e
          exact ⟨rfl, fun _ _ => ⟨0, rfl, ⟨[], [], by simp, rfl⟩, hl⟩, fun h => (hnone h).elim, fun _ => rfl, fun _ => (by rw [hr]; rfl),
            fun _ _ h => absurd hr h, fun _ => rfl⟩
        · rename_i hr
          split at e
          · cases e
            exact ⟨rfl, fun _ _ => ⟨0, rfl, ⟨[], s.relocs.flatMap (relocBytes o), by simp, rfl⟩, hl⟩, fun h => (hnone h).elim, fun h => (by rw [hb] at h; cases h), fun _ => rfl,
              fun _ _ _ => ⟨s.length, rfl, ⟨s.written, [], by simp, hl⟩⟩, fun h => absurd h hr⟩
          · cases e

theorem outSects_placed {o : Obj} (l : List Sect) {pos : Nat} {hs : List Head} {bs : List Byte} (e : outSects o pos l = some (hs, bs)) :
    hs.length = l.length ∧ ∀ (j : Nat) (s : Sect), l[j]? = some s → ∃ h, hs[j]? = some h ∧ Placed o pos bs s h := by
  induction l generalizing pos hs bs with
  | nil => cases e; exact ⟨rfl, fun j s h => by simp at h⟩
  | cons a l ih =>
    unfold outSects at e
    split at e
    · cases e
    · rename_i h b hb
      split at e
      · cases e
      · rename_i hs' rest hr
        cases e
        obtain ⟨i1, i2⟩ := ih hr
        refine ⟨by simp [i1], fun j s hj => ?_⟩
        rcases j with _ | j
        · simp only [List.getElem?_cons_zero, Option.some.injEq] at hj
          subst hj
          exact ⟨h, rfl, (outSect_placed hb).right rest⟩
        · simp only [List.getElem?_cons_succ] at hj
          obtain ⟨h', g1, g2⟩ := i2 j s hj
          exact ⟨h', g1, g2.left b⟩

/-- Nothing ends the program for an object as it should be. -/
theorem outSects_some {o : Obj} (ho : ObjOk o) (l : List Sect) (hl : ∀ s ∈ l, SectOk o s) (pos : Nat) : ∃ r, outSects o pos l = some r := by
  induction l generalizing pos with
  | nil => exact ⟨_, rfl⟩
  | cons a l ih =>
    have hk := hl a (by simp)
    have hok : a.relocs.all (relocOk o) = true := by
      rw [List.all_eq_true]
      intro r hr
      obtain ⟨_, _, _, _, ⟨x, x1, x2⟩, hb, hn⟩ := hk.reloc r hr
      unfold relocOk
      rw [data_eq ho x1 x2]
      rcases hbase : r.base with _ | b
      · simp [hn hbase]
      · obtain ⟨y, y1, y2⟩ := hb b hbase
        simp [data_eq ho y1 y2]
    have hs : ∃ p, outSect o pos a = some p := by
      unfold outSect
      split
      · exact ⟨_, rfl⟩
      · rename_i hb
        rw [if_neg]
        · split
          · exact ⟨_, rfl⟩
          · split
            · exact ⟨_, rfl⟩
            · exact ⟨_, rfl⟩
        · have hf : a.flags / 4 % 2 = 0 := by
            simp only [Sect.bss, decide_eq_true_eq] at hb
            omega
          rw [show a.written.length = a.length from hk.length hf]
          simp
    obtain ⟨⟨h, b⟩, e⟩ := hs
    obtain ⟨⟨hs, rest⟩, e'⟩ := ih (fun s hs => hl s (by simp [hs])) (pos + b.length)
    exact ⟨(h :: hs, b ++ rest), by simp only [outSects, e, e']⟩

end Verif.Xdf
