/-
Which code a location is for; the program for the assembly source.
-/
import Verif.Dwarf.Gen

namespace Verif.Dwarf

open Verif.Intnum

set_option linter.unusedSimpArgs false

/-- The last label of the bytecodes, or else `last`. -/
def lastLabel (last : Option Nat) (bs : List Bc) : Option Nat := ((bs.flatMap Bc.syms).getLast?).or last

theorem seek_eq (v : Long) (bs : List Bc) : ∀ last, seek v bs last =
    (bs.dropWhile (fun b => decide (b.line.toNat ≤ v.toNat)), lastLabel last (bs.takeWhile fun b => decide (b.line.toNat ≤ v.toNat))) := by
  induction bs with
  | nil => intro last; rfl
  | cons b bs ih =>
    intro last
    unfold seek
    by_cases h : b.line.toNat ≤ v.toNat
    · rw [if_pos h, ih, List.dropWhile_cons, List.takeWhile_cons]
      simp only [h, decide_true, if_true, lastLabel, List.flatMap_cons, List.getLast?_append]
      cases (List.flatMap Bc.syms (List.takeWhile (fun b => decide (b.line.toNat ≤ v.toNat)) bs)).getLast? <;>
        cases b.syms.getLast? <;> rfl
    · rw [if_neg h, List.dropWhile_cons, List.takeWhile_cons]
      simp only [h, decide_false, Bool.false_eq_true, if_false, lastLabel, List.flatMap_nil, List.getLast?_nil, Option.none_or]

theorem finalize_eq (ls : List Loc) : ∀ (pre bs : List Bc), (∀ l ∈ ls, ∀ b ∈ pre, b.line.toNat ≤ l.vline.toNat) →
    ls.Pairwise (fun x y => x.vline.toNat ≤ y.vline.toNat) →
    finalizeLocs ls bs (pre.flatMap Bc.syms).getLast? = ls.map (locate (pre ++ bs)) := by
  induction ls with
  | nil => intro _ _ _ _; rfl
  | cons l ls ih =>
    intro pre bs hpre hs
    have hs' := List.pairwise_cons.1 hs
    rw [finalizeLocs, seek_eq, List.map_cons]
    have hp : ∀ b ∈ pre, decide (b.line.toNat ≤ l.vline.toNat) = true := fun b hb => by
      simpa using hpre l (List.mem_cons_self ..) b hb
    have hd : (pre ++ bs).dropWhile (fun b => decide (b.line.toNat ≤ l.vline.toNat)) =
        bs.dropWhile (fun b => decide (b.line.toNat ≤ l.vline.toNat)) := by
      rw [List.dropWhile_append_of_pos hp]
    have ht : (pre ++ bs).takeWhile (fun b => decide (b.line.toNat ≤ l.vline.toNat)) =
        pre ++ bs.takeWhile (fun b => decide (b.line.toNat ≤ l.vline.toNat)) := by
      rw [List.takeWhile_append_of_pos hp]
    have hl : lastLabel (pre.flatMap Bc.syms).getLast? (bs.takeWhile fun b => decide (b.line.toNat ≤ l.vline.toNat)) =
        ((pre ++ bs.takeWhile (fun b => decide (b.line.toNat ≤ l.vline.toNat))).flatMap Bc.syms).getLast? := by
      rw [lastLabel, List.flatMap_append, List.getLast?_append]
    simp only
    congr 1
    · rw [locate, hd, ht, hl]
    · rw [hl, ih _ _ ?_ hs'.2]
      · rw [List.append_assoc, List.takeWhile_append_dropWhile]
      · intro n hn b hb
        rcases List.mem_append.1 hb with h | h
        · exact hpre n (List.mem_cons_of_mem _ hn) b h
        · have h1 := hs'.1 n hn
          have h2 : decide (b.line.toNat ≤ l.vline.toNat) = true := by
            exact List.all_eq_true.1 List.all_takeWhile b h
          have h2 := of_decide_eq_true h2
          omega

/-! ### The assembly source -/

/-- The location made for a bytecode. -/
def bcLoc (where_ : Long → Long × Long) (b : Bc) (sym : Option Nat) : Loc :=
  ⟨b.line, (where_ b.line).1, (where_ b.line).2, 0, 0, none, .nochange, false, false, false, some b.offset, sym⟩

theorem note_bcLoc (where_ : Long → Long × Long) (b : Bc) (sym : Option Nat) : Marks.start.note (bcLoc where_ b sym) = Marks.start := rfl

section
variable (out : Nat → Nat → List Byte)

theorem genBcs_does (start : Int) (size : Nat) (hsz : size < 2 ^ 31) (where_ : Long → Long × Long) (bs : List Bc) :
    ∀ (s : State) (sym : Option Nat) (a : Int), Inv start s Marks.start a →
    (∀ b ∈ bs, b.offset.toNat < 2 ^ 32 ∧ (where_ b.line).1.toNat < 2 ^ 32 ∧ (where_ b.line).2.toNat < 2 ^ 32) →
    s.column = 0 →
    bs.Pairwise (fun x y => x.offset.toNat ≤ y.offset.toNat) →
    (∀ p, s.prec = some p → ∀ b ∈ bs, p.toNat ≤ b.offset.toNat) →
    (s.prec = none → ∀ b y, firstCode sym bs = some (b, y) → ∃ z, y = some z ∧ (leVal (out z size) : Int) = start + b.offset.toNat) →
    ∃ ops s' a', genBcs 1 size where_ s sym bs = .ok (ops, s') ∧ (∀ o ∈ ops, OkOp o) ∧ Inv start s' Marks.start a' ∧
      (∀ p, s'.prec = some p → s.prec = some p ∨ ∃ b ∈ bs, p = b.offset) ∧ (bs ≠ [] → s'.prec ≠ none) ∧ 
      ∀ os, execAll (header 1) (Marks.start.regs a s.file s.line s.column) (ops.map (den out) ++ os) =
        expectedSource start where_ bs ++ execAll (header 1) (Marks.start.regs a' s'.file s'.line s'.column) os := by
  induction bs with
  | nil =>
    intro s sym a hi _ _ _ _ _
    exact ⟨[], s, a, rfl, by intro o h; simp at h, hi, fun p h => Or.inl h, fun h => absurd rfl h, fun os => rfl⟩
  | cons b bs ih =>
    intro s sym a hi hsm hcol hsort hprec hfirst
    have hsort' := List.pairwise_cons.1 hsort
    by_cases hsk : bs.head?.map Bc.offset = some b.offset
    · obtain ⟨ops, s', a', h1, h2, h3, h4, h6, h5⟩ := ih s sym a hi (fun n hn => hsm n (List.mem_cons_of_mem _ hn)) hcol hsort'.2
        (fun p hp n hn => hprec p hp n (List.mem_cons_of_mem _ hn))
        (fun hn c y hc => hfirst hn c y (by rw [firstCode, if_pos hsk]; exact hc))
      have hne : bs ≠ [] := by rintro rfl; simp at hsk
      refine ⟨ops, s', a', ?_, h2, h3, ?_, fun _ => h6 hne, ?_⟩
      · simp only [genBcs, genBc, if_pos hsk, h1, List.nil_append]
      · intro p hp
        rcases h4 p hp with h | ⟨c, hc, h⟩
        · exact Or.inl h
        · exact Or.inr ⟨c, List.mem_cons_of_mem _ hc, h⟩
      · intro os
        rw [expectedSource, if_pos hsk]
        exact h5 os
    · obtain ⟨hb1, hb2, hb3⟩ := hsm b (List.mem_cons_self ..)
      have hgen := gen_does out start size s (bcLoc where_ b (b.syms.getLast?.or sym)) none Marks.start a b.offset hi hsz
        ⟨hb2, hb3, by show (0 : Long).toNat < 2 ^ 32; decide, by show (0 : Long).toNat < 2 ^ 32; decide, by intro i h; cases h⟩
        rfl hb1 rfl (fun p hp => hprec p hp b (List.mem_cons_self ..))
        (fun hn => hfirst hn b _ (by rw [firstCode, if_neg hsk]; rfl))
      obtain ⟨gops, gs, g1, g2, g3, g4, g5, g6, g7⟩ := hgen
      rw [note_bcLoc] at g6 g7
      have hafter : Marks.start.after = Marks.start := rfl
      rw [hafter] at g6
      obtain ⟨ops, s', a', h1, h2, h3, h4, h6, h5⟩ := ih gs (b.syms.getLast?.or sym) (start + b.offset.toNat) g6
        (fun n hn => hsm n (List.mem_cons_of_mem _ hn)) (by rw [g5]; rfl) hsort'.2
        (fun p hp n hn => by
          have : some p = some b.offset := by rw [← hp, g2]
          cases this
          exact hsort'.1 n hn)
        (fun hn => by rw [g2] at hn; cases hn)
      refine ⟨gops ++ ops, s', a', ?_, ?_, h3, ?_, ?_, ?_⟩
      · have : genBc 1 size where_ s sym b bs.head? = .ok (gops, gs, b.syms.getLast?.or sym) := by
          unfold genBc
          rw [if_neg hsk]
          unfold bcLoc at g1
          simp only [g1]
        simp only [genBcs, this, h1]
      · intro o ho
        rcases List.mem_append.1 ho with h | h
        · exact g7.ok o h
        · exact h2 o h
      · intro p hp
        rcases h4 p hp with h | ⟨c, hc, h⟩
        · rw [g2] at h; cases h
          exact Or.inr ⟨b, List.mem_cons_self .., rfl⟩
        · exact Or.inr ⟨c, List.mem_cons_of_mem _ hc, h⟩
      · intro _
        by_cases hne : bs = []
        · subst hne
          simp only [genBcs, Except.ok.injEq, Prod.mk.injEq] at h1
          rw [← h1.2, g2]; simp
        · exact h6 hne
      · intro os
        rw [List.map_append, List.append_assoc, g7.run, if_pos rfl, after_regs _ _ start b.offset rfl, hafter]
        rw [← g3, ← g4, ← g5]
        rw [h5, expectedSource, if_neg hsk]
        rfl

end

end Verif.Dwarf
