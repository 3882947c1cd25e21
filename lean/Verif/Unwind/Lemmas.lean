import Verif.Unwind.Model
import Verif.Unwind.Spec
/-
Lemmas about unwind information.
-/
namespace Verif.Unwind

/-- A code is written as what the system reads as `u` at the place `o`. -/
def Good (start : Int) (c : Code) (o : Nat) (u : Uw) : Prop :=
  ∃ k bs, (calcLen c).2.1 = 2 * k ∧ 1 ≤ k ∧ codeBytes start (calcLen c).1 = (bs, []) ∧ bs.length = 2 * k ∧
    ∀ f m r, readSlots (f + 1) (k + m) (bs ++ r) = (readSlots f m r).map (fun x => ((o, u) :: x.1, x.2))

theorem read_two (f m o b a d : Nat) (r : List Nat) (u : Nat → Uw) (h : (b % 16 = 1 ∧ b / 16 = 0 ∧ u = fun v => .alloc (v * 8)) ∨
    (b % 16 = 4 ∧ u = fun v => .save (b / 16) (v * 8)) ∨ (b % 16 = 8 ∧ u = fun v => .saveXmm (b / 16) (v * 16))) :
    readSlots (f + 1) (2 + m) (o :: b :: a :: d :: r) = (readSlots f m r).map (fun x => ((o, u (u16 a d)) :: x.1, x.2)) := by
  rw [show 2 + m = (m + 1) + 1 by omega]
  rcases h with ⟨h, h', rfl⟩ | ⟨h, rfl⟩ | ⟨h, rfl⟩
  · simp [readSlots, h, h']
  · simp [readSlots, h]
  · simp [readSlots, h]

theorem read_three (f m o b a d e g : Nat) (r : List Nat) (u : Nat → Uw) (h : (b % 16 = 1 ∧ b / 16 = 1 ∧ u = .alloc) ∨
    (b % 16 = 5 ∧ u = .save (b / 16)) ∨ (b % 16 = 9 ∧ u = .saveXmm (b / 16))) :
    readSlots (f + 1) (3 + m) (o :: b :: a :: d :: e :: g :: r) = (readSlots f m r).map (fun x => ((o, u (u32 a d e g)) :: x.1, x.2)) := by
  rw [show 3 + m = (m + 2) + 1 by omega]
  rcases h with ⟨h, h', rfl⟩ | ⟨h, rfl⟩ | ⟨h, rfl⟩
  · simp [readSlots, h, h']
  · simp [readSlots, h]
  · simp [readSlots, h]

theorem read_one (f m o b : Nat) (r : List Nat) (u : Uw) (h : (b % 16 = 0 ∧ u = .push (b / 16)) ∨ (b % 16 = 2 ∧ u = .alloc (b / 16 * 8 + 8)) ∨
    (b % 16 = 3 ∧ u = .setFrame) ∨ (b % 16 = 10 ∧ b / 16 = 0 ∧ u = .machineFrame false) ∨ (b % 16 = 10 ∧ b / 16 = 1 ∧ u = .machineFrame true)) :
    readSlots (f + 1) (1 + m) (o :: b :: r) = (readSlots f m r).map (fun x => ((o, u) :: x.1, x.2)) := by
  rw [show 1 + m = m + 1 by omega]
  rcases h with ⟨h, rfl⟩ | ⟨h, rfl⟩ | ⟨h, rfl⟩ | ⟨h, h', rfl⟩ | ⟨h, h', rfl⟩
  · simp [readSlots, h]
  · simp [readSlots, h]
  · simp [readSlots, h]
  · simp [readSlots, h, h']
  · simp [readSlots, h, h']

/-- Two bytes. -/
theorem le2 (v : Nat) (h : v < 65536) : ∃ a b, le 2 v = [a, b] ∧ u16 a b = v :=
  ⟨v % 256, v / 256 % 256, by simp [le], by unfold u16; omega⟩

/-- Four bytes. -/
theorem le4 (v : Nat) (h : v < 4294967296) : ∃ a b c d, le 4 v = [a, b, c, d] ∧ u32 a b c d = v :=
  ⟨v % 256, v / 256 % 256, v / 256 / 256 % 256, v / 256 / 256 / 256 % 256, by simp [le], by unfold u32; omega⟩

theorem sized_errs (c : Code) (len span : Nat) (low high mask : Int) (h : (sized c len span low high mask).2.2 = []) :
    low ≤ c.off ∧ c.off % (mask + 1) = 0 := by
  unfold sized at h
  simp only [List.append_eq_nil_iff] at h
  obtain ⟨⟨_, h1⟩, h2⟩ := h
  constructor
  · by_cases hc : c.off < low
    · rw [if_pos hc] at h1; simp at h1
    · omega
  · by_cases hc : c.off % (mask + 1) = 0
    · exact hc
    · rw [if_pos hc] at h2; simp at h2

theorem good_alloc (start p n : Int) (h : (calcLen ⟨p, 2, 0, n⟩).2.2 = []) (hn : n < 4294967296) :
    Good start ⟨p, 2, 0, n⟩ ((p - start) % 256).toNat (.alloc n.toNat) := by
  have hs := sized_errs ⟨p, 2, 0, n⟩ 2 1 8 128 7 h
  obtain ⟨h8, hm⟩ := hs
  clear h
  obtain ⟨m, rfl⟩ : ∃ m : Nat, n = 8 * (m : Int) := ⟨(n / 8).toNat, by simp only at h8 hm; omega⟩
  simp only at h8 hm
  have hneg : ¬ 8 * (m : Int) < 0 := by omega
  by_cases h1 : 8 * (m : Int) ≤ 128
  · have h1' : ¬ 128 < 8 * (m : Int) := by omega
    have h3 : ¬ 8 * (m : Int) < 8 := by omega
    refine ⟨1, [((p - start) % 256).toNat, ((m - 1) * 16 + 2) % 256], ?_, by omega, ?_, rfl, ?_⟩
    · simp [calcLen, sized, h1']
    · have e1 : (calcLen ⟨p, 2, 0, 8 * (m : Int)⟩).1 = ⟨p, 2, 0, 8 * (m : Int)⟩ := by
        simp [calcLen, sized, h1']
      rw [e1]
      simp [codeBytes, le, h1', h3]
    · intro f k r
      refine read_one f k _ _ r _ (Or.inr (Or.inl ⟨by omega, ?_⟩))
      congr 1; omega
  · have h1' : 128 < 8 * (m : Int) := by omega
    by_cases h2 : 8 * (m : Int) ≤ 524280
    · have h2' : ¬ 524280 < 8 * (m : Int) := by omega
      have h3 : ¬ 8 * (m : Int) < 136 := by omega
      obtain ⟨a, b, hl, hv⟩ := le2 m (by omega)
      refine ⟨2, [((p - start) % 256).toNat, 1, a, b], ?_, by omega, ?_, rfl, ?_⟩
      · simp [calcLen, sized, expand, h1', hneg, h2]
      · have e1 : (calcLen ⟨p, 2, 0, 8 * (m : Int)⟩).1 = ⟨p, 1, 0, 8 * (m : Int)⟩ := by
          simp [calcLen, sized, expand, h1', hneg, h2]
        rw [e1]
        have hd : ((m : Int) % 65536).toNat = m := by omega
        simp [codeBytes, h2', h3, hd, hl]
      · intro f k r
        have := read_two f k ((p - start) % 256).toNat 1 a b r (fun v => .alloc (v * 8)) (Or.inl ⟨rfl, rfl, rfl⟩)
        simp only [hv] at this
        rw [show (8 * (m : Int)).toNat = m * 8 by omega]
        exact this
    · obtain ⟨a, b, c, d, hl, hv⟩ := le4 (8 * m) (by omega)
      refine ⟨3, [((p - start) % 256).toNat, 17, a, b, c, d], ?_, by omega, ?_, rfl, ?_⟩
      · simp [calcLen, sized, expand, h1', hneg, h2]
      · have e1 : (calcLen ⟨p, 2, 0, 8 * (m : Int)⟩).1 = ⟨p, 1, 1, 8 * (m : Int)⟩ := by
          simp [calcLen, sized, expand, h1', hneg, h2]
        rw [e1]
        have hd : ((8 * (m : Int)) % 4294967296).toNat = 8 * m := by omega
        simp [codeBytes, hd, hl]
      · intro f k r
        have := read_three f k ((p - start) % 256).toNat 17 a b c d r .alloc (Or.inl ⟨rfl, rfl, rfl⟩)
        simp only [hv] at this
        rw [show (8 * (m : Int)).toNat = 8 * m by omega]
        exact this

theorem good_save (start p off : Int) (reg : Nat) (hr : reg < 16) (h : (calcLen ⟨p, 4, reg, off⟩).2.2 = []) (hn : off < 4294967296) :
    Good start ⟨p, 4, reg, off⟩ ((p - start) % 256).toNat (.save reg off.toNat) := by
  have hs := sized_errs ⟨p, 4, reg, off⟩ 4 2 0 524280 7 h
  obtain ⟨h8, hm⟩ := hs
  clear h
  obtain ⟨m, rfl⟩ : ∃ m : Nat, off = 8 * (m : Int) := ⟨(off / 8).toNat, by simp only at h8 hm; omega⟩
  simp only at h8 hm
  have hneg : ¬ 8 * (m : Int) < 0 := by omega
  by_cases h2 : 8 * (m : Int) ≤ 524280
  · have h2' : ¬ 524280 < 8 * (m : Int) := by omega
    obtain ⟨a, b, hl, hv⟩ := le2 m (by omega)
    refine ⟨2, [((p - start) % 256).toNat, reg * 16 + 4, a, b], ?_, by omega, ?_, rfl, ?_⟩
    · simp [calcLen, sized, h2']
    · have e1 : (calcLen ⟨p, 4, reg, 8 * (m : Int)⟩).1 = ⟨p, 4, reg, 8 * (m : Int)⟩ := by
        simp [calcLen, sized, h2']
      rw [e1]
      have hd : ((m : Int) % 65536).toNat = m := by omega
      have hw : (reg * 16 + 4) % 256 = reg * 16 + 4 := by omega
      simp [codeBytes, h2', hneg, hd, hl, hw]
    · intro f k r
      have := read_two f k ((p - start) % 256).toNat (reg * 16 + 4) a b r (fun v => .save ((reg * 16 + 4) / 16) (v * 8))
        (Or.inr (Or.inl ⟨by omega, rfl⟩))
      simp only [hv] at this
      rw [show (reg * 16 + 4) / 16 = reg by omega] at this
      rw [show (8 * (m : Int)).toNat = m * 8 by omega]
      exact this
  · have h2' : 524280 < 8 * (m : Int) := by omega
    obtain ⟨a, b, c, d, hl, hv⟩ := le4 (8 * m) (by omega)
    refine ⟨3, [((p - start) % 256).toNat, reg * 16 + 5, a, b, c, d], ?_, by omega, ?_, rfl, ?_⟩
    · simp [calcLen, sized, expand, hneg, h2']
    · have e1 : (calcLen ⟨p, 4, reg, 8 * (m : Int)⟩).1 = ⟨p, 5, reg, 8 * (m : Int)⟩ := by
        simp [calcLen, sized, expand, hneg, h2']
      rw [e1]
      have hd : ((8 * (m : Int)) % 4294967296).toNat = 8 * m := by omega
      have hw : (reg * 16 + 5) % 256 = reg * 16 + 5 := by omega
      simp [codeBytes, hd, hl, hw]
    · intro f k r
      have := read_three f k ((p - start) % 256).toNat (reg * 16 + 5) a b c d r (.save ((reg * 16 + 5) / 16))
        (Or.inr (Or.inl ⟨by omega, rfl⟩))
      simp only [hv] at this
      rw [show (reg * 16 + 5) / 16 = reg by omega] at this
      rw [show (8 * (m : Int)).toNat = 8 * m by omega]
      exact this

theorem good_saveXmm (start p off : Int) (reg : Nat) (hr : reg < 16) (h : (calcLen ⟨p, 8, reg, off⟩).2.2 = []) (hn : off < 4294967296) :
    Good start ⟨p, 8, reg, off⟩ ((p - start) % 256).toNat (.saveXmm reg off.toNat) := by
  have hs := sized_errs ⟨p, 8, reg, off⟩ 4 3 0 1048560 15 h
  obtain ⟨h8, hm⟩ := hs
  clear h
  obtain ⟨m, rfl⟩ : ∃ m : Nat, off = 16 * (m : Int) := ⟨(off / 16).toNat, by simp only at h8 hm; omega⟩
  simp only at h8 hm
  have hneg : ¬ 16 * (m : Int) < 0 := by omega
  by_cases h2 : 16 * (m : Int) ≤ 1048560
  · have h2' : ¬ 1048560 < 16 * (m : Int) := by omega
    obtain ⟨a, b, hl, hv⟩ := le2 m (by omega)
    refine ⟨2, [((p - start) % 256).toNat, reg * 16 + 8, a, b], ?_, by omega, ?_, rfl, ?_⟩
    · simp [calcLen, sized, h2']
    · have e1 : (calcLen ⟨p, 8, reg, 16 * (m : Int)⟩).1 = ⟨p, 8, reg, 16 * (m : Int)⟩ := by
        simp [calcLen, sized, h2']
      rw [e1]
      have hd : ((m : Int) % 65536).toNat = m := by omega
      have hw : (reg * 16 + 8) % 256 = reg * 16 + 8 := by omega
      simp [codeBytes, h2', hneg, hd, hl, hw]
    · intro f k r
      have := read_two f k ((p - start) % 256).toNat (reg * 16 + 8) a b r (fun v => .saveXmm ((reg * 16 + 8) / 16) (v * 16))
        (Or.inr (Or.inr ⟨by omega, rfl⟩))
      simp only [hv] at this
      rw [show (reg * 16 + 8) / 16 = reg by omega] at this
      rw [show (16 * (m : Int)).toNat = m * 16 by omega]
      exact this
  · have h2' : 1048560 < 16 * (m : Int) := by omega
    obtain ⟨a, b, c, d, hl, hv⟩ := le4 (16 * m) (by omega)
    refine ⟨3, [((p - start) % 256).toNat, reg * 16 + 9, a, b, c, d], ?_, by omega, ?_, rfl, ?_⟩
    · simp [calcLen, sized, expand, hneg, h2']
    · have e1 : (calcLen ⟨p, 8, reg, 16 * (m : Int)⟩).1 = ⟨p, 9, reg, 16 * (m : Int)⟩ := by
        simp [calcLen, sized, expand, hneg, h2']
      rw [e1]
      have hd : ((16 * (m : Int)) % 4294967296).toNat = 16 * m := by omega
      have hw : (reg * 16 + 9) % 256 = reg * 16 + 9 := by omega
      simp [codeBytes, hd, hl, hw]
    · intro f k r
      have := read_three f k ((p - start) % 256).toNat (reg * 16 + 9) a b c d r (.saveXmm ((reg * 16 + 9) / 16))
        (Or.inr (Or.inr ⟨by omega, rfl⟩))
      simp only [hv] at this
      rw [show (reg * 16 + 9) / 16 = reg by omega] at this
      rw [show (16 * (m : Int)).toNat = 16 * m by omega]
      exact this

theorem good_push (start p : Int) (reg : Nat) (hr : reg < 16) :
    Good start ⟨p, 0, reg, 0⟩ ((p - start) % 256).toNat (.push reg) := by
  refine ⟨1, [((p - start) % 256).toNat, reg * 16], rfl, by omega, ?_, rfl, ?_⟩
  · have hw : (reg * 16) % 256 = reg * 16 := by omega
    simp [calcLen, codeBytes, hw]
  · intro f k r
    refine read_one f k _ _ r _ (Or.inl ⟨by omega, ?_⟩)
    congr 1; omega

theorem good_setFrame (start p off : Int) (reg : Nat) (hr : reg < 16) :
    Good start ⟨p, 3, reg, off⟩ ((p - start) % 256).toNat .setFrame := by
  refine ⟨1, [((p - start) % 256).toNat, reg * 16 + 3], rfl, by omega, ?_, rfl, ?_⟩
  · have hw : (reg * 16 + 3) % 256 = reg * 16 + 3 := by omega
    simp [calcLen, codeBytes, hw]
  · intro f k r
    exact read_one f k _ _ r _ (Or.inr (Or.inr (Or.inl ⟨by omega, rfl⟩)))

theorem good_pushFrame (start p : Int) (b : Bool) :
    Good start ⟨p, 10, if b then 1 else 0, 0⟩ ((p - start) % 256).toNat (.machineFrame b) := by
  cases b with
  | false =>
    refine ⟨1, [((p - start) % 256).toNat, 10], rfl, by omega, by simp [calcLen, codeBytes], rfl, ?_⟩
    intro f k r
    exact read_one f k _ _ r _ (Or.inr (Or.inr (Or.inr (Or.inl ⟨rfl, rfl, rfl⟩))))
  | true =>
    refine ⟨1, [((p - start) % 256).toNat, 26], rfl, by omega, by simp [calcLen, codeBytes], rfl, ?_⟩
    intro f k r
    exact read_one f k _ _ r _ (Or.inr (Or.inr (Or.inr (Or.inr ⟨rfl, rfl, rfl⟩))))

/-- The codes of a procedure are read back. -/
theorem good_list (start : Int) : ∀ (cs : List (Code × Nat × Uw)), (∀ x ∈ cs, Good start x.1 x.2.1 x.2.2) →
    ∃ K, ((cs.map (fun x => calcLen x.1)).map (fun x => x.2.1)).sum = 2 * K ∧ cs.length ≤ K ∧
      (((cs.map (fun x => calcLen x.1)).map (fun x => (codeBytes start x.1).1)).flatten).length = 2 * K ∧
      ((cs.map (fun x => calcLen x.1)).map (fun x => (codeBytes start x.1).2)).flatten = [] ∧
      ∀ f r, readSlots (f + cs.length) K (((cs.map (fun x => calcLen x.1)).map (fun x => (codeBytes start x.1).1)).flatten ++ r) =
        some (cs.map (fun x => x.2), r)
  | [], _ => ⟨0, rfl, by simp, rfl, rfl, by intro f r; cases f <;> simp [readSlots]⟩
  | c :: cs, h => by
    obtain ⟨K, h1, h2, h3, h4, h5⟩ := good_list start cs (fun x hx => h x (List.mem_cons_of_mem _ hx))
    obtain ⟨k, bs, g1, g2, g3, g4, g5⟩ := h c List.mem_cons_self
    refine ⟨k + K, ?_, ?_, ?_, ?_, ?_⟩
    · simp only [List.map_cons, List.sum_cons, g1, h1]; omega
    · simp only [List.length_cons]; omega
    · simp only [List.map_cons, List.flatten_cons, List.length_append, g3, g4, h3]; omega
    · simp only [List.map_cons, List.flatten_cons, g3, h4, List.nil_append]
    · intro f r
      simp only [List.map_cons, List.flatten_cons, g3, List.append_assoc, List.length_cons]
      rw [← Nat.add_assoc, g5, h5]
      rfl

end Verif.Unwind
