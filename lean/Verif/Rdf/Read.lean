import Verif.Rdf.Lemmas
namespace Verif.Rdf
open Verif.Elf (Byte Name number Num le le_length number_le)

variable {o : Obj}

/-- A list of symbols from number `n` on, with indexes from `i` on. -/
theorem syms_records (ho : ObjOk o) (ss : List Sym) (n i : Nat) (hd : o.syms.drop n = ss) (hi : o.index n = i) :
    Pre (symsBytes o i ss) ((ss.zipIdx n).filterMap fun p => o.wantSym p.2 p.1) := by
  induction ss generalizing n i with
  | nil => exact Pre.nil
  | cons s ss ih =>
    have hn : o.syms[n]? = some s := by
      have := congrArg List.head? hd
      rwa [List.head?_drop, List.head?_cons] at this
    have hd' : o.syms.drop (n + 1) = ss := by
      have := congrArg List.tail hd
      rwa [List.tail_drop, List.tail_cons] at this
    have hm := List.mem_of_getElem? hn
    have hlt : n < o.syms.length := by
      by_contra h
      rw [List.getElem?_eq_none (by omega)] at hn
      cases hn
    have htake : o.syms.take (n + 1) = o.syms.take n ++ [s] := by
      rw [List.take_add_one, hn]
      rfl
    have hstep : o.index (n + 1) = i + if s.imported then 1 else 0 := by
      unfold Obj.index at hi ⊢
      rw [htake, List.filter_append, List.length_append, ← hi, List.filter_cons]
      split <;> simp <;> omega
    have hmono : o.index (n + 1) ≤ o.index o.syms.length := by
      unfold Obj.index
      rw [List.take_length]
      have := ((List.take_sublist (n + 1) o.syms).filter Sym.imported).length_le
      omega
    have hix := ho.indexes
    rw [List.zipIdx_cons, List.filterMap_cons]
    unfold symsBytes
    by_cases hgl : s.tabled = true ∧ s.glob = true
    · obtain ⟨ht, hg⟩ := hgl
      obtain ⟨r, h1, h2, h3⟩ := glob_record (i := i) (ho.syms s hm ht) ho.number hg ht
      have h1' : o.wantSym n s = some r := by
        obtain ⟨hx, hc, k, off, e⟩ := (ho.syms s hm ht).glob hg
        unfold Obj.wantSym at h1 ⊢
        simp only [ht, hg, e] at h1 ⊢
        exact h1
      have him : s.imported = false := by simp [Sym.imported, hg]
      rw [h3, if_neg (by decide), hg, if_pos rfl]
      simp only [h1']
      exact h2.append (ih (n + 1) i hd' (by rw [hstep, him]; simp))
    · by_cases him : s.imported = true
      · have ht : s.tabled = true := by
          unfold Sym.imported at him
          simp only [Bool.and_eq_true] at him
          exact him.1.1.1
        rw [him, if_pos rfl] at hstep
        obtain ⟨r, h1, h2, h3, h4, _⟩ := import_record (ho.syms s hm ht) him hi (by omega)
        rw [h3, if_neg (by decide), h4, if_neg (by decide)]
        simp only [h1]
        exact h2.append (ih (n + 1) (i + 1) hd' hstep)
      · rw [Bool.not_eq_true] at him
        obtain ⟨h1, h2⟩ := passed_of (o := o) (s := s) (fun ht => ho.syms s hm ht) (fun ht => by
          cases hg : s.glob
          · rfl
          · exact absurd ⟨ht, hg⟩ hgl) him n
        rw [h1, if_pos rfl]
        simp only [h2]
        exact ih (n + 1) i hd' (by rw [hstep, him]; simp)

/-! ### Segments -/

theorem segments_read {ss : List Sect} (hs : ∀ s ∈ ss, SectOk s) (hl : ∀ s ∈ ss, s.kept = true → s.length < 2 ^ 32) (j : Nat) (hj : j + ss.length ≤ 64) :
    ∀ fuel, (segsBytes j ss).length < fuel → segments fuel (segsBytes j ss ++ List.replicate 10 0) =
      some ((ss.zipIdx j).filterMap fun p => if p.1.kept then some ⟨p.1.type, p.2, p.1.reserved, p.1.chunks.flatMap Elf.Chunk.write⟩ else none) := by
  induction ss generalizing j with
  | nil =>
    intro fuel hf
    obtain ⟨fuel, rfl⟩ : ∃ f, fuel = f + 1 := ⟨fuel - 1, by omega⟩
    rfl
  | cons s ss ih =>
    intro fuel hf
    rw [List.length_cons] at hj
    have hk := hs s (by simp)
    have hlen := hl s (by simp)
    have ih := ih (fun x hx => hs x (by simp [hx])) (fun x hx => hl x (by simp [hx])) (j + 1) (by omega)
    rw [List.zipIdx_cons, List.filterMap_cons]
    unfold segsBytes at hf ⊢
    have e : s.skipped = !s.kept := by
      unfold Sect.skipped Sect.kept
      by_cases h1 : s.type = 0 <;> by_cases h2 : s.length = 0 <;> simp [h1, h2]
    rw [e] at hf ⊢
    cases hkept : s.kept
    · simp only [hkept, Bool.not_false, if_true, List.nil_append, Bool.false_eq_true, if_false] at hf ⊢
      exact ih fuel (by omega)
    · obtain ⟨fuel, rfl⟩ : ∃ f, fuel = f + 1 := ⟨fuel - 1, by omega⟩
      have hty := hk.type
      have hre := hk.reserved
      have hne : s.type ≠ 0 := by
        unfold Sect.kept at hkept
        exact (of_decide_eq_true hkept).1
      have hlen := hlen hkept
      simp only [hkept, Bool.not_true, Bool.false_eq_true, if_false, if_true, List.length_append, le_length] at hf
      simp only [Bool.not_true, Bool.false_eq_true, if_false, if_true, List.append_assoc]
      unfold segments
      rw [num_le 2 _ _ (by omega)]
      simp only [Option.bind_eq_bind, Option.bind_some]
      rw [num_le 2 _ _ (by omega)]
      simp only [Option.bind_some]
      rw [num_le 2 _ _ (by omega)]
      simp only [Option.bind_some]
      rw [num_le 4 _ _ (by omega)]
      simp only [Option.bind_some]
      rw [if_neg hne, bytes_append (Sect.written s) _ (hk.length hkept)]
      simp only [Option.bind_some]
      rw [ih fuel (by omega)]
      rfl

theorem segsBytes_length {ss : List Sect} (hs : ∀ s ∈ ss, SectOk s) (j : Nat) :
    ∀ s ∈ ss, s.kept = true → s.length ≤ (segsBytes j ss).length := by
  induction ss generalizing j with
  | nil => intro s h; cases h
  | cons t ss ih =>
    intro s hm hk
    unfold segsBytes
    rw [List.length_append]
    rcases List.mem_cons.mp hm with rfl | hm
    · have e : s.skipped = false := by
        unfold Sect.skipped
        unfold Sect.kept at hk
        have := of_decide_eq_true hk
        simp [this.1, this.2]
      rw [e, if_neg (by decide)]
      have := (hs s (by simp)).length hk
      simp only [List.length_append]
      have e2 : s.written.length = s.length := this
      omega
    · have := ih (fun x hx => hs x (by simp [hx])) (j + 1) s hm hk
      omega

/-! ### Numbers -/

theorem imported_eq (s : Sym) : s.imported = (!s.passed && !s.glob) := by
  unfold Sym.imported Sym.passed Sym.isLocal
  cases s.tabled <;> cases s.glob <;> cases s.common <;> cases s.ext <;> by_cases h : s.kind = .equ <;> simp [h]

theorem index_succ {n : Nat} {s : Sym} (hn : o.syms[n]? = some s) : o.index (n + 1) = o.index n + if s.imported then 1 else 0 := by
  unfold Obj.index
  rw [List.take_add_one, hn, Option.toList_some, List.filter_append, List.length_append, List.filter_cons]
  split <;> simp <;> omega

theorem index_mono {m n : Nat} (h : m ≤ n) : o.index m ≤ o.index n := by
  unfold Obj.index
  have := ((List.take_sublist_take_left (l := o.syms) h).filter Sym.imported).length_le
  omega

theorem head_drop {n : Nat} {s : Sym} {ss : List Sym} (hd : o.syms.drop n = s :: ss) : o.syms[n]? = some s ∧ o.syms.drop (n + 1) = ss := by
  constructor
  · have := congrArg List.head? hd
    rwa [List.head?_drop, List.head?_cons] at this
  · have := congrArg List.tail hd
    rwa [List.tail_drop, List.tail_cons] at this

theorem numbers_get (ss : List Sym) (n m g : Nat) (hd : o.syms.drop n = ss) (h : (numbers (o.index n) ss)[m]?.join = some g) :
    ∃ x, o.syms[n + m]? = some x ∧ x.imported = true ∧ g = o.index (n + m) := by
  induction ss generalizing n m with
  | nil => cases h
  | cons s ss ih =>
    obtain ⟨hn, hd'⟩ := head_drop hd
    have hs := index_succ hn
    unfold numbers at h
    cases him : s.imported
    · have hp : (s.passed || s.glob) = true := by
        rw [imported_eq] at him
        cases h1 : s.passed <;> cases h2 : s.glob <;> simp_all
      rw [if_pos hp] at h
      replace hs : o.index (n + 1) = o.index n := by rw [hs, him]; simp
      cases m with
      | zero => cases h
      | succ m =>
        rw [List.getElem?_cons_succ, ← hs] at h
        obtain ⟨x, h1, h2, h3⟩ := ih (n + 1) m hd' h
        rw [Nat.add_assoc, Nat.add_comm 1] at h1 h3
        exact ⟨x, h1, h2, h3⟩
    · have hp : ¬ (s.passed || s.glob) = true := by
        rw [imported_eq] at him
        cases h1 : s.passed <;> cases h2 : s.glob <;> simp_all
      rw [if_neg hp] at h
      rw [him, if_pos rfl] at hs
      cases m with
      | zero =>
        simp only [List.getElem?_cons_zero, Option.join_some, Option.some.injEq] at h
        exact ⟨s, hn, him, h.symm⟩
      | succ m =>
        rw [List.getElem?_cons_succ, ← hs] at h
        obtain ⟨x, h1, h2, h3⟩ := ih (n + 1) m hd' h
        rw [Nat.add_assoc, Nat.add_comm 1] at h1 h3
        exact ⟨x, h1, h2, h3⟩

/-- A record for a symbol is for its own number only. -/
theorem named_sym (ho : ObjOk o) {n : Nat} {s : Sym} {r : Record} (hn : o.syms[n]? = some s) (h : o.wantSym n s = some r) (ref : Nat) :
    Record.named ref r = if s.imported = true ∧ ref = o.index n then some (o.outer s) else none := by
  have hm := List.mem_of_getElem? hn
  cases him : s.imported
  · simp only [Bool.false_eq_true, false_and, if_false]
    unfold Obj.wantSym at h
    rw [him] at h
    simp only [Bool.false_eq_true, if_false] at h
    split at h
    · cases h
    · split at h
      · split at h
        · injection h with h; subst h; rfl
        · cases h
      · cases h
  · have ht : s.tabled = true := by
      unfold Sym.imported at him
      simp only [Bool.and_eq_true] at him
      exact him.1.1.1
    have hlt : n < o.syms.length := by
      by_contra h
      rw [List.getElem?_eq_none (by omega)] at hn
      cases hn
    have h1 := index_succ hn
    rw [him, if_pos rfl] at h1
    have h2 : o.index (n + 1) ≤ o.index o.syms.length := index_mono (by omega)
    have h3 := ho.indexes
    obtain ⟨r', g1, _, _, _, g5, g6⟩ := import_record (ho.syms s hm ht) him rfl (show o.index n < 2 ^ 16 by omega)
    rw [h] at g1
    injection g1 with g1
    subst g1
    by_cases e : ref = o.index n
    · subst e; rw [if_pos ⟨rfl, rfl⟩]; exact g5
    · rw [if_neg (by tauto)]; exact g6 ref e

theorem findSome_none (ho : ObjOk o) (ss : List Sym) (n ref : Nat) (hd : o.syms.drop n = ss) (hr : ref < o.index n) :
    (((ss.zipIdx n).filterMap fun p => o.wantSym p.2 p.1).findSome? (Record.named ref)) = none := by
  induction ss generalizing n with
  | nil => rfl
  | cons s ss ih =>
    obtain ⟨hn, hd'⟩ := head_drop hd
    have := index_mono (o := o) (Nat.le_succ n)
    have ih := ih (n + 1) hd' (by simp only [Nat.succ_eq_add_one] at this; omega)
    rw [List.zipIdx_cons, List.filterMap_cons]
    cases hw : o.wantSym n s with
    | none => exact ih
    | some r =>
      simp only
      rw [List.findSome?_cons, named_sym ho hn hw ref, if_neg (by omega)]
      exact ih

theorem findSome_some (ho : ObjOk o) (ss : List Sym) (n m : Nat) (hd : o.syms.drop n = ss) (hm : n ≤ m) {x : Sym} (hx : o.syms[m]? = some x)
    (him : x.imported = true) :
    (((ss.zipIdx n).filterMap fun p => o.wantSym p.2 p.1).findSome? (Record.named (o.index m))) = some (o.outer x) := by
  induction ss generalizing n with
  | nil =>
    have h1 : o.syms.length ≤ n := by
      have := congrArg List.length hd
      rw [List.length_drop, List.length_nil] at this
      omega
    rw [List.getElem?_eq_none (by omega)] at hx
    cases hx
  | cons s ss ih =>
    obtain ⟨hn, hd'⟩ := head_drop hd
    rw [List.zipIdx_cons, List.filterMap_cons]
    by_cases e : n = m
    · subst e
      rw [hn] at hx
      injection hx with hx
      subst hx
      have hmem := List.mem_of_getElem? hn
      have ht : s.tabled = true := by
        unfold Sym.imported at him
        simp only [Bool.and_eq_true] at him
        exact him.1.1.1
      have hlt : n < o.syms.length := by
        by_contra h
        rw [List.getElem?_eq_none (by omega)] at hn
        cases hn
      have h1 := index_succ hn
      rw [him, if_pos rfl] at h1
      have h2 : o.index (n + 1) ≤ o.index o.syms.length := index_mono (by omega)
      have h3 := ho.indexes
      obtain ⟨r, g1, _, _, _, g5, _⟩ := import_record (ho.syms s hmem ht) him rfl (show o.index n < 2 ^ 16 by omega)
      simp only [g1]
      rw [List.findSome?_cons, g5]
    · have ih := ih (n + 1) hd' (by omega)
      have h1 := index_succ hn
      have h2 : o.index (n + 1) ≤ o.index m := index_mono (by omega)
      cases hw : o.wantSym n s with
      | none => exact ih
      | some r =>
        simp only
        rw [List.findSome?_cons, named_sym ho hn hw, if_neg]
        · exact ih
        · rintro ⟨h3, h4⟩
          rw [h3, if_pos rfl] at h1
          omega

/-- The symbol that a number in a file is for. -/
theorem findSome_records (ref : Nat) : o.wantRecords.findSome? (Record.named ref) = o.wantSyms.findSome? (Record.named ref) := by
  have h1 : ∀ l : List Record, (∀ r ∈ l, Record.named ref r = none) → l.findSome? (Record.named ref) = none := fun l h => List.findSome?_eq_none_iff.mpr h
  unfold Obj.wantRecords
  rw [List.findSome?_append, List.findSome?_append, List.findSome?_append, List.findSome?_append]
  rw [h1 (o.modules.map .module_) (by intro r hr; obtain ⟨x, _, rfl⟩ := List.mem_map.mp hr; rfl),
    h1 (o.libraries.map .library) (by intro r hr; obtain ⟨x, _, rfl⟩ := List.mem_map.mp hr; rfl),
    h1 o.wantRelocs (by
      intro r hr
      unfold Obj.wantRelocs at hr
      obtain ⟨p, _, hp⟩ := List.mem_flatMap.mp hr
      split at hp
      · obtain ⟨q, _, rfl⟩ := List.mem_map.mp hp; rfl
      · cases hp)]
  have h2 := h1 (if ((o.sects.filter fun s => s.type = 0).map (·.length)).sum = 0 then [] else
      [.bss ((o.sects.filter fun s => s.type = 0).map (·.length)).sum]) (by
    intro r hr
    split at hr
    · cases hr
    · rw [List.mem_singleton] at hr; subst hr; rfl)
  rw [h2]
  simp

end Verif.Rdf
