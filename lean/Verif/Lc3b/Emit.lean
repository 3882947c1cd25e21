import Verif.Lc3b.Lemmas
namespace Verif.Lc3b
open Verif.Intnum

attribute [local irreducible] calcI

/-! ### What the copies of an instruction are -/

theorem emits_fixed (e : Enc) (out : Out) (h : emit e = (e, out)) (c : Nat) : emits c e = (e, List.replicate c out) := by
  induction c with
  | zero => rfl
  | succ c ih => simp only [emits, h, ih, List.replicate_succ]

/-- All copies are the same and are read as `m`. -/
def AllRead (r : Enc × List Out) (c : Nat) (m : Int → Mach) : Prop :=
  r.2.length = c ∧ ∀ i : Nat, i < c → ∃ bs, r.2[i]? = some (.bytes bs []) ∧ read bs = some (m (2 * i))

theorem allRead_fixed (e : Enc) (a b : BitVec 8) (h : emit e = (e, .bytes [a, b] [])) (c : Nat) (m : Mach)
    (hm : decode (a.toNat + 256 * b.toNat) = some m) : AllRead (emits c e) c fun _ => m := by
  rw [emits_fixed e _ h]
  refine ⟨by simp, fun i hi => ⟨[a, b], ?_, hm⟩⟩
  rw [List.getElem?_replicate, if_pos hi]

/-- No immediate. -/
theorem plain_read (o : Nat) (ho : o < 65536) (c : Nat) (m : Mach) (hm : decode o = some m) : AllRead (emits c ⟨o, .none, ⟨none, none⟩⟩) c fun _ => m := by
  refine allRead_fixed _ (BitVec.ofNat 8 o) (BitVec.ofNat 8 (o / 256)) rfl c m ?_
  rw [BitVec.toNat_ofNat, BitVec.toNat_ofNat, show o % 2 ^ 8 + 256 * (o / 256 % 2 ^ 8) = o by omega, hm]

/-- An immediate that is not relative. -/
theorem imm_emit (o : Nat) (ho : o < 65536) (t : ImmT) (n : Nat) (sign : Bool) (ht : fieldOf t = some (n, sign)) (hp : t ≠ .pc9) (x : Intnum)
    (hx : Fits x) : ∃ a b w, emit ⟨o, t, ⟨some x, none⟩⟩ = (⟨o, t, ⟨some x, none⟩⟩, .bytes [a, b] w) ∧
      a.toNat + 256 * b.toNat = filled o n (val x) ∧ (w = [] ↔ -(2 ^ (n - 1)) ≤ val x ∧ val x < if sign then 2 ^ (n - 1) else 2 ^ n) := by
  have hn : 1 ≤ n ∧ n ≤ 16 := by cases t <;> simp only [fieldOf] at ht <;> cases ht <;> decide
  obtain ⟨out, a, b, e, hb, hw, hr⟩ := put_word x hx o n ho hn.1 hn.2 sign
  refine ⟨a, b, out.warns, ?_, hw, hr⟩
  unfold emit
  simp only [ht, if_neg hp]
  unfold output
  simp only [Option.getD_some, put, e, hb]

theorem imm_read (o : Nat) (ho : o < 65536) (t : ImmT) (n : Nat) (sign : Bool) (ht : fieldOf t = some (n, sign)) (hp : t ≠ .pc9) (x : Intnum)
    (hx : Fits x) (hr : -(2 ^ (n - 1)) ≤ val x ∧ val x < if sign then 2 ^ (n - 1) else 2 ^ n) (c : Nat) (m : Mach)
    (hm : decode (filled o n (val x)) = some m) : AllRead (emits c ⟨o, t, ⟨some x, none⟩⟩) c fun _ => m := by
  obtain ⟨a, b, w, e, hf, hw⟩ := imm_emit o ho t n sign ht hp x hx
  rw [hw.2 hr] at e
  exact allRead_fixed _ a b e c m (by rw [hf, hm])

/-! ### Jumps -/

def absVal (v : Value) : Int := match v.abs with | some a => val a | none => 0
/-- The value in words from the start of the instruction. -/
def total (v : Value) : Int := absVal v + match v.rel with | some (d, s) => d / 2 ^ s | none => 0

/-- Values as jumps have them. -/
structure Jump (v : Value) : Prop where
  rel : ∀ d s, v.rel = some (d, s) → s = 1 ∧ -(2 ^ 31) ≤ d ∧ d < 2 ^ 31
  abs : ∀ a, v.abs = some a → Fits a
  small : -(2 ^ 40) ≤ absVal v ∧ absVal v ≤ 2 ^ 40

theorem pc_emit (o : Nat) (ho : o < 65536) (v : Value) (hv : Jump v) :
    ∃ v' a b w, emit ⟨o, .pc9, v⟩ = (⟨o, .pc9, v'⟩, .bytes [a, b] w) ∧ a.toNat + 256 * b.toNat = filled o 9 (total v - 1) ∧
      (w = [] ↔ -256 ≤ total v - 1 ∧ total v - 1 < 256) ∧ v'.rel = v.rel ∧ (∀ a, v'.abs = some a → Fits a) ∧ absVal v' = absVal v - 1 := by
  obtain ⟨vabs, vrel⟩ := v
  obtain ⟨hrel, habs, hsmall⟩ := hv
  have hy : Fits (toEnd vabs) ∧ val (toEnd vabs) = absVal ⟨vabs, vrel⟩ - 1 := by
    cases vabs with
    | none => exact ⟨fits_neg, show val (.L (-1#64)) = 0 - 1 by decide⟩
    | some a =>
      have v1 : val (.L (-1#64)) = -1 := by decide
      have hs : -(2 ^ 40) ≤ val a ∧ val a ≤ 2 ^ 40 := hsmall
      obtain ⟨t1, t2⟩ := add_small a (.L (-1#64)) (habs a rfl) fits_neg (by rw [v1]; omega)
      have ht : toEnd (some a) = calcI a .ADD (.L (-1#64)) := by unfold toEnd; rfl
      have hab : absVal ⟨some a, vrel⟩ = val a := by unfold absVal; rfl
      rw [ht, hab, t2, v1]
      exact ⟨t1, by omega⟩
  generalize hyy : toEnd vabs = y at hy
  have he : emit ⟨o, .pc9, ⟨vabs, vrel⟩⟩ = (⟨o, .pc9, ⟨some y, vrel⟩⟩,
      output ⟨some y, vrel⟩ true [BitVec.ofNat 8 o, BitVec.ofNat 8 (o / 256)] 9 true) := by
    unfold emit
    simp only [fieldOf, if_true, decide_true, hyy]
  have hz : ∃ z, Fits z ∧ val z = total ⟨vabs, vrel⟩ - 1 ∧ output ⟨some y, vrel⟩ true [BitVec.ofNat 8 o, BitVec.ofNat 8 (o / 256)] 9 true =
      put [BitVec.ofNat 8 o, BitVec.ofNat 8 (o / 256)] 9 true z := by
    cases vrel with
    | none =>
      refine ⟨y, hy.1, ?_, rfl⟩
      rw [hy.2]
      unfold total
      simp
    | some ds =>
      obtain ⟨d, s⟩ := ds
      obtain ⟨h1, h2, h3⟩ := hrel d s rfl
      subst h1
      obtain ⟨f1, w1⟩ := distance_val d ⟨h2, h3⟩
      obtain ⟨f2, w2⟩ := shr_one _ f1
      have u1 : createUint (BitVec.ofNat 64 1) = .L 1#64 := by decide
      have hs : val (calcI (distance d) .SHR (.L 1#64)) + val y = total ⟨vabs, some (d, 1)⟩ - 1 := by
        rw [w2, w1, hy.2]
        show d / 2 + (absVal ⟨vabs, some (d, 1)⟩ - 1) = absVal ⟨vabs, some (d, 1)⟩ + d / 2 ^ 1 - 1
        omega
      have hab : absVal ⟨vabs, some (d, 1)⟩ - 1 = val y := hy.2.symm
      have hq : -(2 ^ 40) ≤ absVal ⟨vabs, some (d, 1)⟩ ∧ absVal ⟨vabs, some (d, 1)⟩ ≤ 2 ^ 40 := hsmall
      obtain ⟨f3, w3⟩ := add_small (calcI (distance d) .SHR (.L 1#64)) y f2 hy.1 (by rw [w2, w1]; omega)
      refine ⟨calcI (calcI (distance d) .SHR (.L 1#64)) .ADD y, f3, w3.trans hs, ?_⟩
      unfold output relative
      simp only [if_true, u1, Nat.one_ne_zero, if_false]
  obtain ⟨z, fz, vz, ez⟩ := hz
  obtain ⟨out, a, b, e, hb, hw, hr⟩ := put_word z fz o 9 ho (by decide) (by decide) true
  rw [vz] at hw hr
  refine ⟨⟨some y, vrel⟩, a, b, out.warns, ?_, hw, ?_, rfl, ?_, hy.2⟩
  · rw [he, ez]
    unfold put
    rw [e]
    simp only [hb]
  · rw [hr]; simp
  · intro q hq
    injection hq with hq
    rw [← hq]
    exact hy.1

theorem pc_read (o : Nat) (ho : o < 65536) (m : Int → Mach) (T : Int) (hT : -256 ≤ T - 1 ∧ T - 1 < 256) (c : Nat)
    (hm : ∀ i : Nat, i < c → decode (filled o 9 (T - i - 1)) = some (m (2 * i))) (hc : -256 ≤ T - (c - 1 : Nat) - 1)
    (v : Value) (hv : Jump v) (hvT : total v = T) : AllRead (emits c ⟨o, .pc9, v⟩) c m := by
  induction c generalizing T v m with
  | zero => exact ⟨rfl, fun i hi => absurd hi (by omega)⟩
  | succ c ih =>
    obtain ⟨v', a, b, w, e, hf, hw, h1, h2, h3⟩ := pc_emit o ho v hv
    rw [hvT] at hf hw
    rw [hw.2 hT] at e
    have ht' : total v' = T - 1 := by rw [← hvT]; unfold total; rw [h1, h3]; omega
    have hj : Jump v' := by
      refine ⟨fun d s h => hv.rel d s (by rw [← h1]; exact h), h2, ?_⟩
      rw [h3]
      have hs := hv.small
      have hrel := hv.rel
      have hvT' := hvT
      unfold total at hvT'
      cases hr : v.rel with
      | none => rw [hr] at hvT'; simp at hvT'; omega
      | some ds =>
        obtain ⟨d, s⟩ := ds
        obtain ⟨q1, q2, q3⟩ := hrel d s hr
        subst q1
        rw [hr] at hvT'
        simp only [pow_one] at hvT'
        omega
    have hmul : emits (c + 1) ⟨o, .pc9, v⟩ = ((emits c ⟨o, .pc9, v'⟩).1, .bytes [a, b] [] :: (emits c ⟨o, .pc9, v'⟩).2) := by simp only [emits, e]
    rw [hmul]
    cases c with
    | zero =>
      refine ⟨rfl, fun i hi => ?_⟩
      have : i = 0 := by omega
      subst this
      refine ⟨[a, b], rfl, ?_⟩
      have := hm 0 (by omega)
      simp only [Int.natCast_zero, Int.sub_zero, Int.mul_zero] at this
      show decode (a.toNat + 256 * b.toNat) = some (m (2 * 0))
      rw [hf]
      simpa using this
    | succ c =>
      obtain ⟨l1, l2⟩ := ih (fun k => m (2 + k)) (T - 1) (by omega) (fun i hi => by
        have := hm (i + 1) (by omega)
        rw [show T - ((i + 1 : Nat) : Int) - 1 = T - 1 - i - 1 by omega] at this
        rw [this, show 2 * ((i + 1 : Nat) : Int) = 2 + 2 * (i : Int) by push_cast; omega]) (by omega) v' hj ht'
      refine ⟨by simp [l1], fun i hi => ?_⟩
      cases i with
      | zero =>
        refine ⟨[a, b], rfl, ?_⟩
        have := hm 0 (by omega)
        simp only [Int.natCast_zero, Int.sub_zero, Int.mul_zero] at this
        show decode (a.toNat + 256 * b.toNat) = some (m (2 * 0))
        rw [hf]
        simpa using this
      | succ i =>
        obtain ⟨bs, q1, q2⟩ := l2 i (by omega)
        refine ⟨bs, q1, ?_⟩
        rw [q2, show 2 * ((i + 1 : Nat) : Int) = 2 + 2 * (i : Int) by push_cast; omega]


end Verif.Lc3b
