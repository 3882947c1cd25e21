import Verif.Listing.Lemmas
/-
Lemmas about the listing: the rows of a line are read back.
-/
namespace Verif.Listing
open Verif.Elf (Byte)

/-! ### Relocations -/

theorem marks_eq (start : Nat) (vs : List Val) (rs rest : List Nat)
    (hs : rs.Sublist (vs.map (fun v => start + v.offset) ++ rest)) (hn : (vs.map (fun v => start + v.offset) ++ rest).Nodup) :
    (marks start vs rs).1 = vs.filter (fun v => decide (start + v.offset ∈ rs)) ∧ (marks start vs rs).2.Sublist rest ∧
      ∀ x ∈ rest, x ∈ (marks start vs rs).2 ↔ x ∈ rs := by
  induction vs generalizing rs with
  | nil => exact ⟨rfl, hs, fun x _ => Iff.rfl⟩
  | cons v vs ih =>
    rw [List.map_cons, List.cons_append] at hs hn
    obtain ⟨hv, hn⟩ := List.nodup_cons.mp hn
    cases rs with
    | nil =>
      obtain ⟨h1, h2, h3⟩ := ih [] (List.nil_sublist _) hn
      refine ⟨?_, h2, h3⟩
      rw [marks, h1]
      simp
    | cons r rs =>
      by_cases hr : r = start + v.offset
      · have hs' : rs.Sublist (vs.map (fun v => start + v.offset) ++ rest) := by rw [hr] at hs; exact List.cons_sublist_cons.mp hs
        obtain ⟨h1, h2, h3⟩ := ih rs hs' hn
        rw [marks, if_pos hr]
        refine ⟨?_, h2, fun x hx => ?_⟩
        · simp only [h1]
          rw [List.filter_cons_of_pos (by simp [hr])]
          congr 1
          refine List.filter_congr fun w hw => ?_
          have : start + w.offset ≠ r := by
            intro e
            exact hv (List.mem_append_left _ (List.mem_map.mpr ⟨w, hw, by rw [e, hr]⟩))
          simp [this]
        · rw [h3 x hx, List.mem_cons]
          have : x ≠ r := by intro e; exact hv (List.mem_append_right _ (by rw [← hr, ← e]; exact hx))
          simp [this]
      · have hs' : (r :: rs).Sublist (vs.map (fun v => start + v.offset) ++ rest) := by
          cases hs with
          | cons _ h => exact h
          | cons_cons _ h => exact absurd rfl hr
        obtain ⟨h1, h2, h3⟩ := ih (r :: rs) hs' hn
        rw [marks, if_neg hr]
        refine ⟨?_, h2, h3⟩
        rw [h1, List.filter_cons_of_neg]
        have : start + v.offset ∉ r :: rs := fun h => hv (hs'.mem h)
        simpa using this

/-! ### The bytes of a row -/

/-- Values that are in order, not empty, and not over at `p`. -/
structure Ahead (ms : List Val) (p : Nat) : Prop where
  order : ms.Pairwise fun a b => a.offset + a.size ≤ b.offset
  size : ∀ m ∈ ms, 0 < m.size
  ends : ∀ m ∈ ms, p < m.offset + m.size

/-- The brackets of a byte, as they are written. -/
theorem item_text (ms : List Val) (p : Nat) (b : Byte) (h : Ahead ms p) :
    (itemFor ms p b).text =
      opening p ms ++ hexByte b ++ closing p ms := by
  cases ms with
  | nil => rfl
  | cons m ms =>
    obtain ⟨h1, h2⟩ := List.pairwise_cons.mp h.order
    have hm := h.size m List.mem_cons_self
    have he := h.ends m List.mem_cons_self
    have f1 : ms.find? (fun v => v.offset = p) = none := by
      rw [List.find?_eq_none]
      intro w hw
      have := h1 w hw
      simp; omega
    have f2 : ms.find? (fun v => v.offset + v.size = p + 1) = none := by
      rw [List.find?_eq_none]
      intro w hw
      have := h1 w hw
      have := h.size w (List.mem_cons_of_mem _ hw)
      simp; omega
    unfold Item.text itemFor hexByte opening closing
    simp only [List.find?_cons, f1, f2]
    by_cases a1 : m.offset = p
    · by_cases a2 : m.offset + m.size = p + 1
      · have a3 : m.size = 1 := by omega
        cases hr : m.rel <;> simp [a1, a3, hr]
      · have a3 : ¬ m.size = 1 := by omega
        have a3' : ¬ 1 = m.size := by omega
        cases hr : m.rel <;> simp [a1, a3, a3', hr]
    · have a1' : ¬ p = m.offset := fun e => a1 e.symm
      by_cases a2 : m.offset + m.size = p + 1
      · cases hr : m.rel <;> simp [a1, a1', a2, hr]
      · have a2' : ¬ p + 1 = m.offset + m.size := fun e => a2 e.symm
        cases hr : m.rel <;> simp [a1, a1', a2, a2', hr]

theorem itemsFor_append (ms : List Val) (p : Nat) (a b : List Byte) :
    itemsFor ms p (a ++ b) = itemsFor ms p a ++ itemsFor ms (p + a.length) b := by
  induction a generalizing p with
  | nil => rfl
  | cons x a ih => rw [List.cons_append, itemsFor, ih, itemsFor, List.cons_append, List.length_cons]; congr 3; omega

/-- A value that is over puts no brackets. -/
theorem itemsFor_over (m : Val) (ms : List Val) (p : Nat) (bs : List Byte) (hs : 0 < m.size) (he : m.offset + m.size ≤ p) :
    itemsFor (m :: ms) p bs = itemsFor ms p bs := by
  induction bs generalizing p with
  | nil => rfl
  | cons b bs ih =>
    rw [itemsFor, itemsFor, ih (p + 1) (by omega)]
    congr 1
    unfold itemFor
    have a1 : ¬ m.offset = p := by omega
    have a2 : ¬ m.offset + m.size = p + 1 := by omega
    simp only [List.find?_cons, a1, a2, decide_false]

theorem cells_eq (i p : Nat) (bs : List Byte) (ms : List Val) (h : Ahead ms p) :
    ∃ a, bs = a ++ (cells i p bs ms).2.2.2.1 ∧ (bs ≠ [] → i < 18 → a ≠ []) ∧ (cells i p bs ms).1 = (itemsFor ms p a).flatMap Item.text ∧
      (cells i p bs ms).2.2.1 = p + a.length ∧ Ahead (cells i p bs ms).2.2.2.2 (p + a.length) ∧
      ∀ q, itemsFor (cells i p bs ms).2.2.2.2 (p + a.length) q = itemsFor ms (p + a.length) q := by
  induction bs generalizing i p ms with
  | nil => exact ⟨[], rfl, fun h => absurd rfl h, rfl, rfl, h, fun q => rfl⟩
  | cons b bs ih =>
    rw [cells]
    by_cases hi : i < 18
    · rw [if_pos hi]
      have ht := item_text ms p b h
      generalize ho : opening p ms = o at ht
      generalize hc : closing p ms = c at ht
      simp only
      have next : Ahead (if c = [] then ms else ms.tail) (p + 1) ∧
          ∀ k, p + 1 ≤ k → ∀ q, itemsFor (if c = [] then ms else ms.tail) k q = itemsFor ms k q := by
        cases ms with
        | nil => subst hc; exact ⟨⟨h.order, h.size, by simp⟩, fun k _ q => rfl⟩
        | cons m ms =>
          obtain ⟨h1, h2⟩ := List.pairwise_cons.mp h.order
          have hm := h.size m List.mem_cons_self
          have he := h.ends m List.mem_cons_self
          by_cases hp : p + 1 = m.offset + m.size
          · simp only [closing, hp, if_true] at hc
            have : c ≠ [] := by rw [← hc]; simp
            rw [if_neg this, List.tail_cons]
            refine ⟨⟨h2, fun w hw => h.size w (List.mem_cons_of_mem _ hw), fun w hw => ?_⟩, fun k hk q => ?_⟩
            · have := h1 w hw
              have := h.size w (List.mem_cons_of_mem _ hw)
              omega
            · exact (itemsFor_over m ms k q hm (by omega)).symm
          · simp only [closing, if_neg hp] at hc
            rw [if_pos hc.symm]
            refine ⟨⟨h.order, h.size, fun w hw => ?_⟩, fun k _ q => rfl⟩
            rcases List.mem_cons.mp hw with e | hw
            · rw [e]; omega
            · have := h1 w hw
              have := h.size w (List.mem_cons_of_mem _ hw)
              omega
      obtain ⟨n1, n2⟩ := next
      obtain ⟨a, e1, _, e2, e3, e4, e5⟩ := ih (i + o.length + 2 + c.length) (p + 1) _ n1
      have hl : p + (b :: a).length = p + 1 + a.length := by rw [List.length_cons]; omega
      refine ⟨b :: a, ?_, fun _ _ => by simp, ?_, ?_, ?_, ?_⟩
      · rw [List.cons_append]; exact congrArg (b :: ·) e1
      · rw [itemsFor, List.flatMap_cons, ht, ← n2 (p + 1) (by omega) a, ← e2]
      · rw [hl]; exact e3
      · rw [hl]; exact e4
      · rw [hl]; intro q; exact (e5 q).trans (n2 _ (by omega) q)
    · rw [if_neg hi]
      exact ⟨[], rfl, fun _ h => absurd h hi, rfl, rfl, h, fun q => rfl⟩

/-! ### Rows -/

theorem itemsFor_byte (ms : List Val) (p : Nat) (bs : List Byte) : ∀ i ∈ itemsFor ms p bs, i.byte < 256 := by
  induction bs generalizing p with
  | nil => intro i h; cases h
  | cons b bs ih =>
    intro i h
    rcases List.mem_cons.mp h with e | h
    · rw [e]; exact b.isLt
    · exact ih (p + 1) i h

theorem row_code (n a : Nat) (its : List Item) (hne : its ≠ []) (hb : ∀ i ∈ its, i.byte < 256) (t : List Char) (ht : Stop t) :
    row (lineNo n ++ [' '] ++ address a ++ [' '] ++ its.flatMap Item.text ++ t) = ⟨n, ending a its t⟩ := by
  have e : lineNo n ++ [' '] ++ address a ++ [' '] ++ its.flatMap Item.text ++ t =
      lineNo n ++ [' '] ++ (address a ++ (' ' :: (its.flatMap Item.text ++ t))) := by simp only [List.append_assoc, List.cons_append, List.nil_append]
  have hr := items_read its hb ht
  rw [e, row_number, body_address]
  congr 1
  split
  · rename_i s hs
    exfalso
    injection hs with _ hs
    cases its with
    | nil => exact hne rfl
    | cons i its =>
      have := text_next i (hb i List.mem_cons_self) (its.flatMap Item.text ++ t) '<'
      have hx : (i.text ++ (its.flatMap Item.text ++ t)).head? = some '<' := by
        rw [← List.append_assoc, ← List.flatMap_cons, hs]; rfl
      unfold Item.text at hx
      have hd := digitChar_ne (d := i.byte / 16) (by have := hb i List.mem_cons_self; omega) (c := '<') (by decide)
      rcases ho : i.opened with _ | _ | _ <;> rw [ho] at hx <;>
        simp only [List.nil_append, List.cons_append, List.head?_cons, Option.some.injEq] at hx
      · exact hd hx
      · revert hx; decide
      · revert hx; decide
  · rename_i s _ hs
    injection hs with _ hs
    rw [← hs, hr]
  · rename_i hs; cases hs

theorem strip_source (k : Nat) (s : Option (List Char)) :
    strip (List.replicate k ' ' ++ sourceText s) = strip (s.getD []) := by
  rw [strip_blanks]
  cases s with
  | none => rfl
  | some s => rfl

theorem ending_blank (a : Nat) (its : List Item) (k : Nat) (s : Option (List Char)) :
    ending a its (List.replicate k ' ' ++ sourceText s) =
      .code a its false false (strip (s.getD [])) := by
  have h := strip_source k s
  have hs : ∀ c, (List.replicate k ' ' ++ sourceText s).head? = some c → c = ' ' := by
    clear h
    intro c hc
    cases k with
    | zero =>
      cases s with
      | none => cases hc
      | some s => cases hc; rfl
    | succ k => rw [List.replicate_succ] at hc; cases hc; rfl
  rw [← h]
  generalize List.replicate k ' ' ++ sourceText s = x at hs
  unfold ending
  split
  · exact absurd (hs '-' rfl) (by decide)
  · exact absurd (hs '<' rfl) (by decide)
  · rfl

theorem stop_blank (k : Nat) (s : Option (List Char)) :
    Stop (List.replicate k ' ' ++ sourceText s) := by
  intro c hc
  cases k with
  | zero =>
    cases s with
    | none => cases hc
    | some s => cases hc; decide
  | succ k => rw [List.replicate_succ] at hc; cases hc; decide

/-- No character of a row ends it. -/
def Plain (t : List Char) : Prop := ∀ c ∈ t, c ≠ '\n'

theorem Plain.append {a b : List Char} (ha : Plain a) (hb : Plain b) : Plain (a ++ b) := by
  intro c hc
  rcases List.mem_append.mp hc with h | h
  · exact ha c h
  · exact hb c h

theorem plain_replicate (k : Nat) {d : Char} (hd : d ≠ '\n') : Plain (List.replicate k d) := by
  intro c hc; rw [List.eq_of_mem_replicate hc]; exact hd

theorem plain_digits (b n : Nat) (hb : 2 ≤ b ∧ b ≤ 16) : Plain ((digits b n).map digitChar) := by
  intro c hc
  obtain ⟨d, hd, e⟩ := List.mem_map.mp hc
  rw [← e]
  have := digits_lt hb.1 n d hd
  exact digitChar_ne (by omega) (by decide)

theorem plain_lineNo (n : Nat) : Plain (lineNo n) := (plain_replicate _ (by decide)).append (plain_digits 10 n (by omega))

theorem plain_address (n : Nat) : Plain (address n) := (plain_replicate _ (by decide)).append (plain_digits 16 n (by omega))

theorem plain_items (its : List Item) (hb : ∀ i ∈ its, i.byte < 256) : Plain (its.flatMap Item.text) := by
  intro c hc
  obtain ⟨i, hi, hc⟩ := List.mem_flatMap.mp hc
  have := hb i hi
  have p1 := digitChar_ne (d := i.byte / 16) (by omega) (c := '\n') (by decide)
  have p2 := digitChar_ne (d := i.byte % 16) (by omega) (c := '\n') (by decide)
  have q : ∀ (o : Option Bool) (a b : Char), a ≠ '\n' → b ≠ '\n' →
      Plain (match o with | some true => [a] | some false => [b] | none => []) := by
    intro o a b h1 h2 c hc
    rcases o with _ | _ | _
    · cases hc
    · rw [List.mem_singleton.mp hc]; exact h2
    · rw [List.mem_singleton.mp hc]; exact h1
  refine ((q i.opened '(' '[' (by decide) (by decide)).append ?_).append (q i.closed ')' ']' (by decide) (by decide)) c hc
  intro c hc
  rcases List.mem_cons.mp hc with h | h
  · rw [h]; exact p1
  · rw [List.mem_singleton.mp h]; exact p2

theorem plain_source {s : Option (List Char)} (h : ∀ t, s = some t → Plain t) :
    Plain (sourceText s) := by
  cases s with
  | none => intro c hc; cases hc
  | some s => exact Plain.append (by unfold Plain; decide) (h s rfl)

/-- The rows of the bytes of a bytecode. -/
theorem rows_read (n start : Nat) (rept : Bool) (fuel p : Nat) (bs : List Byte) (ms : List Val) (source : Option (List Char))
    (hf : bs.length ≤ fuel) (hb : bs ≠ []) (h : Ahead ms p) (hs : ∀ t, source = some t → Plain t) :
    (∀ r ∈ rows n start rept fuel p bs ms source, Plain r) ∧ rows n start rept fuel p bs ms source ≠ [] ∧
    ((rows n start rept fuel p bs ms source).map row).map (·.number) = List.range' n (rows n start rept fuel p bs ms source).length ∧
    ∀ rest, entries ((rows n start rept fuel p bs ms source).map row ++ rest) =
      ⟨some start, itemsFor ms p bs, false, rept, strip (source.getD [])⟩ :: entries rest := by
  induction fuel generalizing n p bs ms source with
  | zero => exact absurd (List.length_eq_zero_iff.mp (by omega)) hb
  | succ fuel ih =>
    cases bs with
    | nil => exact absurd rfl hb
    | cons b bs =>
      obtain ⟨a, e1, e2, e3, e4, e5, e6⟩ := cells_eq 0 p (b :: bs) ms h
      have ha := e2 hb (by omega)
      rw [rows]
      generalize cells 0 p (b :: bs) ms = t at e1 e3 e4 e5 e6
      obtain ⟨txt, i, p', r, ms'⟩ := t
      simp only at e1 e3 e4 e5 e6 ⊢
      have hi : itemsFor ms p (b :: bs) = itemsFor ms p a ++ itemsFor ms' (p + a.length) r := by rw [e1, itemsFor_append, e6]
      have hni : itemsFor ms p a ≠ [] := by cases a with | nil => exact absurd rfl ha | cons => rw [itemsFor]; simp
      have hbi := itemsFor_byte ms p a
      subst e3
      subst e4
      rw [List.append_assoc (lineNo n ++ [' '] ++ address start ++ [' '] ++ (itemsFor ms p a).flatMap Item.text)]
      have hhead : Plain (lineNo n ++ [' '] ++ address start ++ [' '] ++ (itemsFor ms p a).flatMap Item.text) :=
        ((((plain_lineNo n).append (by unfold Plain; decide)).append (plain_address start)).append (by unfold Plain; decide)).append
          (plain_items _ hbi)
      have hsrc := plain_source hs
      by_cases hr : r = []
      · subst hr
        have hz : rows (n + 1) start rept fuel (p + a.length) [] ms' none = [] := by cases fuel <;> rfl
        rw [hz, if_neg (by simp), hi]
        have hend : Stop ((if rept then "<rept>".toList else []) ++ blanks (18 - ((i : Int) + if rept then 6 else 0) + 1) ++
              sourceText source) ∧
            ending start (itemsFor ms p a) ((if rept then "<rept>".toList else []) ++ blanks (18 - ((i : Int) + if rept then 6 else 0) + 1) ++
              sourceText source) =
              .code start (itemsFor ms p a) false rept (strip (source.getD [])) := by
          cases rept with
          | false => exact ⟨stop_blank _ _, ending_blank _ _ _ _⟩
          | true =>
            refine ⟨by intro c hc; cases hc; decide, ?_⟩
            have := strip_source (18 - ((i : Int) + 6) + 1).natAbs source
            show Body.code start (itemsFor ms p a) false true (strip _) = _
            rw [← this]
            rfl
        refine ⟨?_, by simp, ?_, ?_⟩
        · intro x hx
          rw [List.mem_singleton.mp hx]
          refine hhead.append ((Plain.append ?_ (plain_replicate _ (by decide))).append hsrc)
          cases rept <;> (unfold Plain; decide)
        · simp only [List.map_cons, List.map_nil]
          rw [row_code n start _ hni hbi _ hend.1]
          rfl
        · intro rest
          simp only [List.map_cons, List.map_nil]
          rw [row_code n start _ hni hbi _ hend.1, hend.2]
          simp [entries, itemsFor]
      · rw [if_pos hr]
        have hlen : r.length ≤ fuel := by
          have := congrArg List.length e1
          have : 0 < a.length := List.length_pos_iff.mpr ha
          simp only [List.length_append, List.length_cons] at *
          omega
        obtain ⟨i1, i2, i3, i4⟩ := ih (n + 1) (p + a.length) r ms' none hlen hr e5 (by intro t h; cases h)
        have hstop : Stop (['-'] ++ sourceText source) := by
          intro c hc; cases hc; decide
        have hend : ending start (itemsFor ms p a) (['-'] ++ sourceText source) =
            .code start (itemsFor ms p a) true false (strip (source.getD [])) := by
          show Body.code start (itemsFor ms p a) true false (strip _) = _
          rw [← strip_source 0 source]
          rfl
        refine ⟨?_, by simp, ?_, ?_⟩
        · intro x hx
          rcases List.mem_cons.mp hx with e | hx
          · rw [e]
            exact hhead.append (Plain.append (by unfold Plain; decide) hsrc)
          · exact i1 x hx
        · rw [List.map_cons, List.map_cons, i3, row_code n start _ hni hbi _ hstop, List.length_cons, List.range'_succ]
        · intro rest
          rw [List.map_cons, List.cons_append, entries, row_code n start _ hni hbi _ hstop, hend]
          simp only [if_true]
          rw [i4 rest, hi]
          simp [strip]

end Verif.Listing
