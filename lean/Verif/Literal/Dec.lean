import Verif.Literal.Lemmas
set_option linter.unusedSimpArgs false
set_option linter.unusedVariables false
namespace Verif.Literal
open Verif.Bitvect Verif.Intnum

/-! ### non-strict multiplication -/

theorem mulLoop_lax {n m : Nat} (z : BitVec m) (k c : Nat) (x y : BitVec n)
    (hk : z.toNat / 2 ^ c < 2 ^ k) (hk' : 0 < k → 2 ^ (k - 1) ≤ z.toNat / 2 ^ c) (hy : y.toNat ≠ 0) :
    ((mulLoop false z k c x y).2 = true ↔ x.toNat + y.toNat * (z.toNat / 2 ^ c) < 2 ^ n) ∧
    (x.toNat + y.toNat * (z.toNat / 2 ^ c) < 2 ^ n →
      (mulLoop false z k c x y).1.toNat = x.toNat + y.toNat * (z.toNat / 2 ^ c)) := by
  induction k generalizing c x y with
  | zero =>
    have : z.toNat / 2 ^ c = 0 := by simpa using hk
    simp only [mulLoop, this, Nat.mul_zero, Nat.add_zero]
    exact ⟨⟨fun _ => x.isLt, fun _ => trivial⟩, fun _ => trivial⟩
  | succ k ih =>
    have hs := div_pow_step z.toNat c
    have hb : z.getLsbD c = z.toNat.testBit c := by rw [BitVec.getLsbD]
    rw [← hb] at hs
    have hbl := Bool.toNat_le (z.getLsbD c)
    generalize hz : z.toNat / 2 ^ c = zc at *
    generalize hz1 : z.toNat / 2 ^ (c + 1) = zc1 at *
    have hexp : y.toNat * zc = 2 * (y.toNat * zc1) + y.toNat * (z.getLsbD c).toNat := by
      rw [hs]; ring
    have hxl := x.isLt
    have hyl := y.isLt
    unfold mulLoop
    simp only [Bool.false_eq_true, if_false]
    by_cases hcar : z.getLsbD c = true ∧ addCarry x y = true
    · have h1 : 2 ^ n ≤ x.toNat + y.toNat := by simpa [addCarry] using hcar.2
      have hge : ¬ (x.toNat + y.toNat * zc < 2 ^ n) := by
        rw [hexp, hcar.1]; simp; omega
      rw [if_pos hcar.1, hcar.1]
      simp only [if_true, hcar.2, Bool.not_true]
      refine ⟨⟨fun h => by simp at h, fun h => absurd h hge⟩, fun h => absurd h hge⟩
    · have hok : (if z.getLsbD c = true then !addCarry x y else true) = true := by
        cases h : z.getLsbD c
        · simp
        · have : addCarry x y = false := by
            cases h2 : addCarry x y
            · rfl
            · exact absurd ⟨h, h2⟩ hcar
          simp [this]
      have hx1 : (if z.getLsbD c = true then x + y else x).toNat = x.toNat + y.toNat * (z.getLsbD c).toNat := by
        cases h : z.getLsbD c
        · simp
        · have : ¬ (2 ^ n ≤ x.toNat + y.toNat) := by
            intro h2; exact hcar ⟨h, by simpa [addCarry] using h2⟩
          simp only [if_true, Bool.toNat_true, Nat.mul_one]
          rw [BitVec.toNat_add, Nat.mod_eq_of_lt (by omega)]
      rw [hok]
      simp only [Bool.true_eq_false, if_false]
      have hx1l := (if z.getLsbD c = true then x + y else x).isLt
      rw [hx1] at hx1l
      by_cases hk0 : k = 0
      · rw [if_pos hk0]
        have hz0 : zc1 = 0 := by subst hk0; simp at hk; omega
        have e : x.toNat + y.toNat * zc = x.toNat + y.toNat * (z.getLsbD c).toNat := by
          rw [hexp, hz0]; omega
        rw [e]
        exact ⟨⟨fun _ => hx1l, fun _ => rfl⟩, fun _ => hx1⟩
      · rw [if_neg hk0]
        have hz1ge : 2 ^ (k - 1) ≤ zc1 := by
          have := hk' (by omega)
          have e : 2 ^ (k + 1 - 1) = 2 * 2 ^ (k - 1) := by
            rw [Nat.add_sub_cancel]
            conv => lhs; rw [show k = (k - 1) + 1 by omega]
            rw [Nat.pow_succ, Nat.mul_comm]
          rw [e, hs] at this
          omega
        have hz1pos : 1 ≤ zc1 := by
          have h2 : 0 < 2 ^ (k - 1) := Nat.two_pow_pos _
          omega
        have hyz1 : y.toNat ≤ y.toNat * zc1 := Nat.le_mul_of_pos_right _ hz1pos
        have hsum : x.toNat + y.toNat * zc =
            (if z.getLsbD c = true then x + y else x).toNat + 2 * y.toNat * zc1 := by
          rw [hx1, hexp]; ring
        have hn0 : 0 < n := by
          rcases Nat.eq_zero_or_pos n with h | h
          · subst h; simp at hyl; omega
          · exact h
        have hms := msb_iff y
        have hcarry : shl1Carry y = true ↔ 2 ^ n ≤ 2 * y.toNat := by
          unfold shl1Carry; rw [hms]; simp
        by_cases hc2 : 2 ^ n ≤ 2 * y.toNat
        · rw [hcarry.2 hc2]
          simp only [Bool.not_true, if_true]
          have hge : ¬ (x.toNat + y.toNat * zc < 2 ^ n) := by
            rw [hsum, Nat.mul_assoc]; omega
          exact ⟨⟨fun h => by simp at h, fun h => absurd h hge⟩, fun h => absurd h hge⟩
        · have : shl1Carry y = false := by
            cases h : shl1Carry y
            · rfl
            · exact absurd (hcarry.1 h) hc2
          rw [this]
          simp only [Bool.not_false, Bool.true_eq_false, if_false]
          have hy1 : (shl1 y false).toNat = 2 * y.toNat := by
            rw [shl1_toNat _ _ (by simp; omega)]; simp
          have hk1 : zc1 < 2 ^ k := by
            have e : 2 ^ (k + 1) = 2 * 2 ^ k := by rw [Nat.pow_succ, Nat.mul_comm]
            omega
          have := ih (c + 1) (if z.getLsbD c = true then x + y else x) (shl1 y false)
            (by rw [hz1]; exact hk1) (by rw [hz1]; exact fun _ => hz1ge) (by omega)
          rw [hz1, hy1, ← hsum] at this
          exact this

theorem mulPos_lax {n m : Nat} (y : BitVec n) (z : BitVec m) :
    ((mulPos y z false).2 = true ↔ y.toNat * z.toNat < 2 ^ n) ∧
    (y.toNat * z.toNat < 2 ^ n → (mulPos y z false).1.toNat = y.toNat * z.toNat) := by
  unfold mulPos
  by_cases hy : y.toNat = 0
  · rw [if_pos hy, hy]; simp [Nat.two_pow_pos]
  rw [if_neg hy]
  by_cases hz : z.toNat = 0
  · rw [if_pos ((setMax_neg_iff z).2 hz), hz]; simp [Nat.two_pow_pos]
  rw [if_neg (by rw [setMax_neg_iff]; exact hz), setMax_nonneg z hz]
  have h := mulLoop_lax z (z.toNat.log2 + 1) 0 (0#n) y (by simpa using Nat.lt_log2_self)
    (by intro _; simpa using Nat.log2_self_le hz) hy
  simpa using h

/-! ### decimal strings -/

/-- Value of a reversed decimal string. -/
def rdec : List (BitVec 8) → Nat
  | [] => 0
  | c :: cs => (c.toNat - 48) + 10 * rdec cs

theorem decVal_eq (s : List (BitVec 8)) : decVal s = rdec s.reverse := by
  have : ∀ l : List (BitVec 8), rdec l = l.foldr (fun c acc => acc * 10 + (c.toNat - 48)) 0 := by
    intro l
    induction l with
    | nil => rfl
    | cons c cs ih => rw [rdec, List.foldr_cons, ih]; omega
  rw [this, decVal, List.foldr_reverse]

theorem rdec_append (a b : List (BitVec 8)) : rdec (a ++ b) = rdec a + 10 ^ a.length * rdec b := by
  induction a with
  | nil => simp [rdec]
  | cons c cs ih => rw [List.cons_append, rdec, rdec, ih, List.length_cons, Nat.pow_succ]; ring

theorem dec_tail {c : BitVec 8} {cs : List (BitVec 8)} (h : DecDigits (c :: cs)) : DecDigits cs :=
  fun x hx => h x (List.mem_cons_of_mem _ hx)

theorem rdec_lt (l : List (BitVec 8)) (h : DecDigits l) : rdec l < 10 ^ l.length := by
  induction l with
  | nil => simp [rdec]
  | cons c cs ih =>
    have := ih (dec_tail h)
    have hc := h c List.mem_cons_self
    rw [rdec, List.length_cons, Nat.pow_succ]; omega

theorem decChunk_spec (n : Nat) (l : List (BitVec 8)) (accu j : Nat) (hj : j + n ≤ 9) (ha : accu < 10 ^ j) :
    (DecDigits (l.take n) → decChunk n l accu (10 ^ j) = some (accu + 10 ^ j * rdec (l.take n), l.drop n)) ∧
    (¬ DecDigits (l.take n) → decChunk n l accu (10 ^ j) = none) := by
  induction n generalizing l accu j with
  | zero =>
    refine ⟨fun _ => by simp [decChunk, rdec], fun h => absurd (fun c hc => by simp at hc) h⟩
  | succ n ih =>
    cases l with
    | nil => refine ⟨fun _ => by simp [decChunk, rdec], fun h => absurd (fun c hc => by simp at hc) h⟩
    | cons c cs =>
      rw [decChunk, List.take_succ_cons]
      by_cases hc : 48 ≤ c.toNat ∧ c.toNat ≤ 57
      · rw [if_pos hc]
        have hp9 : 10 ^ (j + 1) ≤ 10 ^ 9 := Nat.pow_le_pow_right (by decide) (by omega)
        have hp : 10 ^ (j + 1) = 10 ^ j * 10 := Nat.pow_succ _ _
        have hm : (c.toNat - 48) * 10 ^ j ≤ 9 * 10 ^ j := Nat.mul_le_mul_right _ (by omega)
        have e1 : (accu + (c.toNat - 48) * 10 ^ j) % 2 ^ 32 = accu + (c.toNat - 48) * 10 ^ j :=
          Nat.mod_eq_of_lt (by omega)
        have e2 : 10 ^ j * 10 % 2 ^ 32 = 10 ^ (j + 1) := by
          rw [hp]; exact Nat.mod_eq_of_lt (by omega)
        rw [e1, e2]
        obtain ⟨i1, i2⟩ := ih cs (accu + (c.toNat - 48) * 10 ^ j) (j + 1) (by omega) (by omega)
        constructor
        · intro h
          rw [i1 (dec_tail h), rdec, List.drop_succ_cons, hp]
          congr 2; ring
        · intro h
          apply i2
          intro h2; apply h
          intro x hx
          rcases List.mem_cons.1 hx with h3 | h3
          · rw [h3]; exact hc
          · exact h2 x h3
      · rw [if_neg hc]
        exact ⟨fun h => absurd (h c List.mem_cons_self) hc, fun _ => rfl⟩

theorem pow9 (j : Nat) : 10 ^ (9 * j) < 2 ^ 256 ↔ j ≤ 8 := by
  constructor
  · intro h
    by_contra hj
    have : 10 ^ 81 ≤ 10 ^ (9 * j) := Nat.pow_le_pow_right (by decide) (by omega)
    have h2 : 2 ^ 256 ≤ 10 ^ 81 := by decide +kernel
    omega
  · intro h
    have : 10 ^ (9 * j) ≤ 10 ^ 72 := Nat.pow_le_pow_right (by decide) (by omega)
    have h2 : 10 ^ 72 < 2 ^ 256 := by decide +kernel
    omega

theorem decLoop_spec (f : Nat) (l : List (BitVec 8)) (addr rank : BitVec 256) (shift : Bool) (j : Nat)
    (hf : l.length ≤ f) (hl : l ≠ []) (hj : j ≤ 8)
    (hr : (shift = false ∧ j = 0) ∨ (shift = true ∧ rank.toNat = 10 ^ (9 * j))) :
    ((decLoop f l addr rank shift).2 = .ok ↔
      DecDigits l ∧ l.length ≤ 9 * (9 - j) ∧ addr.toNat + 10 ^ (9 * j) * rdec l < 2 ^ 256) ∧
    ((decLoop f l addr rank shift).2 = .ok →
      (decLoop f l addr rank shift).1.toNat = addr.toNat + 10 ^ (9 * j) * rdec l) := by
  induction f generalizing l addr rank shift j with
  | zero => cases l with
    | nil => exact absurd rfl hl
    | cons c cs => simp at hf
  | succ f ih =>
    cases l with
    | nil => exact absurd rfl hl
    | cons c cs =>
      generalize hL : c :: cs = L at *
      have hLeq : decLoop (f + 1) L addr rank shift = decLoop (f + 1) (c :: cs) addr rank shift := by rw [hL]
      rw [hLeq, decLoop, hL]
      obtain ⟨c1, c2⟩ := decChunk_spec 9 L 0 0 (by decide) (by decide)
      rw [Nat.pow_zero] at c1 c2
      by_cases hd : DecDigits (L.take 9)
      · rw [c1 hd]
        simp only [Nat.zero_add, Nat.one_mul]
        have hacc := rdec_lt _ hd
        have htl : (L.take 9).length ≤ 9 := by simp [List.length_take]
        have hacc9 : rdec (L.take 9) < 10 ^ 9 := Nat.lt_of_lt_of_le hacc (Nat.pow_le_pow_right (by decide) htl)
        have hsplit : rdec L = rdec (L.take 9) + 10 ^ (L.take 9).length * rdec (L.drop 9) := by
          rw [← rdec_append, List.take_append_drop]
        generalize ha : rdec (L.take 9) = a at *
        have ha32 : (BitVec.ofNat 32 a).toNat = a := by
          rw [BitVec.toNat_ofNat, Nat.mod_eq_of_lt (by omega)]
        have hp : ((if shift = true then mulPos rank (BitVec.ofNat 32 a) false else (BitVec.ofNat 256 a, true)).2 = true ↔
              10 ^ (9 * j) * a < 2 ^ 256) ∧ (10 ^ (9 * j) * a < 2 ^ 256 →
              (if shift = true then mulPos rank (BitVec.ofNat 32 a) false else (BitVec.ofNat 256 a, true)).1.toNat =
              10 ^ (9 * j) * a) := by
          rcases hr with ⟨h1, h2⟩ | ⟨h1, h2⟩
          · subst h1 h2
            simp only [Bool.false_eq_true, if_false, Nat.mul_zero, Nat.pow_zero, Nat.one_mul]
            have : a < 2 ^ 256 := by omega
            exact ⟨⟨fun _ => this, fun _ => trivial⟩, fun _ => by rw [BitVec.toNat_ofNat, Nat.mod_eq_of_lt this]⟩
          · subst h1
            simp only [if_true]
            have := mulPos_lax rank (BitVec.ofNat 32 a)
            rw [h2, ha32] at this
            exact this
        generalize (if shift = true then mulPos rank (BitVec.ofNat 32 a) false else (BitVec.ofNat 256 a, true)) = p at *
        obtain ⟨hp1, hp2⟩ := hp
        by_cases hpa : 10 ^ (9 * j) * a < 2 ^ 256
        · have hp1' := hp1.2 hpa
          have hp2' := hp2 hpa
          rw [if_neg (by rw [hp1']; decide)]
          by_cases hcar : 2 ^ 256 ≤ addr.toNat + p.1.toNat
          · rw [if_pos (by simpa [addCarry] using hcar)]
            constructor
            · constructor
              · intro h; simp at h
              · rintro ⟨-, -, h⟩
                exfalso
                rw [hsplit, Nat.mul_add] at h
                omega
            · intro h; simp at h
          · rw [if_neg (by simpa [addCarry] using hcar)]
            have hadd : (addr + p.1).toNat = addr.toNat + 10 ^ (9 * j) * a := by
              rw [BitVec.toNat_add, Nat.mod_eq_of_lt (by omega), hp2']
            by_cases hrest : L.drop 9 = []
            · rw [if_pos hrest]
              have hlen : L.length ≤ 9 := by
                have := congrArg List.length hrest
                simp at this; omega
              have htake : L.take 9 = L := List.take_of_length_le hlen
              rw [htake] at hd ha
              rw [ha]
              refine ⟨⟨fun _ => ⟨hd, by omega, by omega⟩, fun _ => rfl⟩, fun _ => hadd⟩
            · rw [if_neg hrest]
              have hlen : 9 < L.length := by
                by_contra h
                exact hrest (List.drop_eq_nil_of_le (by omega))
              have htake : (L.take 9).length = 9 := by simp [List.length_take]; omega
              rw [htake] at hsplit
              have he9 : (BitVec.ofNat 32 (10 ^ 9)).toNat = 10 ^ 9 := by decide
              have hpow : 10 ^ (9 * (j + 1)) = 10 ^ (9 * j) * 10 ^ 9 := by
                rw [← Nat.pow_add]; congr 1
              have hq : ((if shift = true then mulPos rank (BitVec.ofNat 32 (10 ^ 9)) false
                    else (BitVec.ofNat 256 (10 ^ 9), true)).2 = true ↔ j + 1 ≤ 8) ∧ (j + 1 ≤ 8 →
                  (if shift = true then mulPos rank (BitVec.ofNat 32 (10 ^ 9)) false
                    else (BitVec.ofNat 256 (10 ^ 9), true)).1.toNat = 10 ^ (9 * (j + 1))) := by
                rw [← pow9 (j + 1), hpow]
                rcases hr with ⟨h1, h2⟩ | ⟨h1, h2⟩
                · subst h1 h2
                  simp only [Bool.false_eq_true, if_false]
                  decide +kernel
                · subst h1
                  simp only [if_true]
                  have := mulPos_lax rank (BitVec.ofNat 32 (10 ^ 9))
                  rw [h2, he9] at this
                  exact this
              generalize (if shift = true then mulPos rank (BitVec.ofNat 32 (10 ^ 9)) false
                    else (BitVec.ofNat 256 (10 ^ 9), true)) = q at *
              obtain ⟨hq1, hq2⟩ := hq
              by_cases hj8 : j + 1 ≤ 8
              · rw [if_neg (by rw [hq1.2 hj8]; decide)]
                have hdl : (L.drop 9).length = L.length - 9 := by simp
                obtain ⟨i1, i2⟩ := ih (L.drop 9) (addr + p.1) q.1 true (j + 1) (by omega) hrest hj8
                  (Or.inr ⟨rfl, hq2 hj8⟩)
                have heq : (addr + p.1).toNat + 10 ^ (9 * (j + 1)) * rdec (L.drop 9) =
                    addr.toNat + 10 ^ (9 * j) * rdec L := by
                  rw [hadd, hsplit, hpow]; ring
                rw [heq] at i1 i2
                refine ⟨?_, i2⟩
                rw [i1, hdl]
                have hdd : DecDigits L ↔ DecDigits (L.drop 9) := by
                  constructor
                  · intro h x hx; exact h x (List.mem_of_mem_drop hx)
                  · intro h x hx
                    rw [← List.take_append_drop 9 L] at hx
                    rcases List.mem_append.1 hx with h3 | h3
                    · exact hd x h3
                    · exact h x h3
                rw [hdd]
                constructor
                · rintro ⟨h1, h2, h3⟩; exact ⟨h1, by omega, h3⟩
                · rintro ⟨h1, h2, h3⟩; exact ⟨h1, by omega, h3⟩
              · have hq1' : q.2 = false := by
                  cases h : q.2
                  · rfl
                  · exact absurd (hq1.1 h) hj8
                rw [if_pos hq1']
                constructor
                · constructor
                  · intro h; simp at h
                  · rintro ⟨-, h, -⟩; omega
                · intro h; simp at h
        · have hp1' : p.2 = false := by
            cases h : p.2
            · rfl
            · exact absurd (hp1.1 h) hpa
          rw [if_pos hp1']
          constructor
          · constructor
            · intro h; simp at h
            · rintro ⟨-, -, h⟩
              exfalso
              rw [hsplit, Nat.mul_add] at h
              omega
          · intro h; simp at h
      · rw [c2 hd]
        simp only
        constructor
        · constructor
          · intro h; simp at h
          · rintro ⟨h, -, -⟩
            exact absurd (fun x hx => h x (List.mem_of_mem_take hx)) hd
        · intro h; simp at h

/-! ### writing decimals -/

theorem digit_toNat (q : Nat) : (BitVec.ofNat 8 (48 + q % 10)).toNat = 48 + q % 10 := by
  rw [BitVec.toNat_ofNat]; exact Nat.mod_eq_of_lt (by omega)

/-- Decimal digits, least significant first, of a number. -/
structure Digits (ds : List (BitVec 8)) (q : Nat) : Prop where
  digits : DecDigits ds
  value : rdec ds = q

theorem digits_cons (ds : List (BitVec 8)) (q : Nat) (h : Digits ds (q / 10)) :
    Digits (BitVec.ofNat 8 (48 + q % 10) :: ds) q := by
  refine ⟨?_, ?_⟩
  · intro x hx
    rcases List.mem_cons.1 hx with h1 | h1
    · rw [h1, digit_toNat]; omega
    · exact h.digits x h1
  · rw [rdec, digit_toNat, h.value]; omega

theorem putDigits_spec (n q room : Nat) (hq : q < 10 ^ n) (hr : n ≤ room) :
    (putDigits n q room).length = n ∧ Digits (putDigits n q room) q := by
  induction n generalizing q room with
  | zero =>
    have : q = 0 := by simpa using hq
    subst this
    exact ⟨rfl, fun x hx => by simp [putDigits] at hx, rfl⟩
  | succ n ih =>
    cases room with
    | zero => omega
    | succ room =>
      rw [putDigits]
      obtain ⟨h1, h2⟩ := ih (q / 10) room (by rw [Nat.pow_succ] at hq; omega) (by omega)
      exact ⟨by simp [h1], digits_cons _ _ h2⟩

theorem putLast_spec (n q room m : Nat) (hq : q < 10 ^ n) (hm : q < 10 ^ m) (hr : m ≤ room) :
    (putLast n q room).length ≤ m ∧ Digits (putLast n q room) q ∧
    (∀ c, (putLast n q room).getLast? = some c → c ≠ 48#8) := by
  induction n generalizing q room m with
  | zero =>
    have : q = 0 := by simpa using hq
    subst this
    exact ⟨by simp [putLast], ⟨fun x hx => by simp [putLast] at hx, rfl⟩, by simp [putLast]⟩
  | succ n ih =>
    cases room with
    | zero =>
      have : m = 0 := by omega
      subst this
      have : q = 0 := by simpa using hm
      subst this
      exact ⟨by simp [putLast], ⟨fun x hx => by simp [putLast] at hx, rfl⟩, by simp [putLast]⟩
    | succ room =>
      rw [putLast]
      by_cases h0 : q = 0
      · rw [if_pos h0]
        subst h0
        exact ⟨by simp, ⟨fun x hx => by simp at hx, rfl⟩, by simp⟩
      · rw [if_neg h0]
        have hm0 : m ≠ 0 := by intro h; subst h; simp at hm; omega
        obtain ⟨m', rfl⟩ : ∃ m', m = m' + 1 := ⟨m - 1, by omega⟩
        obtain ⟨h1, h2, h3⟩ := ih (q / 10) room m' (by rw [Nat.pow_succ] at hq; omega)
          (by rw [Nat.pow_succ] at hm; omega) (by omega)
        refine ⟨by simp; omega, digits_cons _ _ h2, ?_⟩
        intro c hc
        cases hp : putLast n (q / 10) room with
        | nil =>
          rw [hp] at hc h2
          simp at hc
          have hz : q / 10 = 0 := by rw [← h2.value]; rfl
          intro hc2
          rw [← hc] at hc2
          have := congrArg BitVec.toNat hc2
          rw [digit_toNat] at this
          simp at this; omega
        | cons a as =>
          rw [hp] at hc h3
          rw [List.getLast?_cons_cons] at hc
          exact h3 c hc

theorem decDigits_spec (f : Nat) (x : BitVec 256) (room m : Nat) (hx : x.toNat ≠ 0) (hf : x.toNat < 10 ^ (9 * f))
    (hm : x.toNat < 10 ^ m) (hr : m ≤ room) :
    (decDigits f x room).length ≤ m ∧ Digits (decDigits f x room) x.toNat ∧
    (∀ c, (decDigits f x room).getLast? = some c → c ≠ 48#8) := by
  induction f generalizing x room m with
  | zero => simp at hf; exact absurd (by simp [hf]) hx
  | succ f ih =>
    have h9 : (BitVec.ofNat 256 (10 ^ 9)).toNat = 10 ^ 9 := by decide
    obtain ⟨d1, d2⟩ := divPos_spec x (BitVec.ofNat 256 (10 ^ 9)) (by rw [h9]; decide) (by rw [h9]; decide)
    rw [h9] at d1 d2
    have hrl : x.toNat % 10 ^ 9 < 10 ^ 9 := Nat.mod_lt _ (by decide)
    have hmod : x.toNat % 10 ^ 9 % 2 ^ 32 = x.toNat % 10 ^ 9 := Nat.mod_eq_of_lt (by omega)
    rw [decDigits]
    simp only [d1, d2, hmod]
    by_cases h0 : x.toNat / 10 ^ 9 = 0
    · rw [if_pos h0]
      have : x.toNat % 10 ^ 9 = x.toNat := by omega
      rw [this]
      exact putLast_spec 10 x.toNat room m (by omega) hm hr
    · rw [if_neg h0]
      have hm9 : 9 < m := by
        by_contra h
        have : 10 ^ m ≤ 10 ^ 9 := Nat.pow_le_pow_right (by decide) (by omega)
        omega
      obtain ⟨p1, p2⟩ := putDigits_spec 9 (x.toNat % 10 ^ 9) room hrl (by omega)
      rw [p1, if_pos (by omega)]
      have em : 10 ^ m = 10 ^ (m - 9) * 10 ^ 9 := by rw [← Nat.pow_add]; congr 1; omega
      have ef : 10 ^ (9 * (f + 1)) = 10 ^ (9 * f) * 10 ^ 9 := by rw [← Nat.pow_add]; congr 1
      obtain ⟨i1, i2, i3⟩ := ih (divPos x (BitVec.ofNat 256 (10 ^ 9))).1 (room - 9) (m - 9) (by rw [d1]; exact h0)
        (by rw [d1, Nat.div_lt_iff_lt_mul (by decide), ← ef]; exact hf)
        (by rw [d1, Nat.div_lt_iff_lt_mul (by decide), ← em]; exact hm) (by omega)
      rw [d1] at i2
      refine ⟨by rw [List.length_append, p1]; omega, ⟨?_, ?_⟩, ?_⟩
      · intro c hc
        rcases List.mem_append.1 hc with h | h
        · exact p2.digits c h
        · exact i2.digits c h
      · rw [rdec_append, p1, p2.value, i2.value]
        omega
      · intro c hc
        cases hdd : decDigits f (divPos x (BitVec.ofNat 256 (10 ^ 9))).1 (room - 9) with
        | nil =>
          rw [hdd] at i2
          exact absurd i2.value.symm h0
        | cons a as =>
          rw [hdd] at hc i3
          rw [List.getLast?_append] at hc
          cases hg : (a :: as).getLast? with
          | none => simp at hg
          | some b => rw [hg] at hc i3; simp at hc; exact i3 c (by rw [hc])

theorem ldDigits_spec (f n : Nat) (hf : n < 10 ^ f) (hf0 : 0 < f) :
    DecDigits (ldDigits f n) ∧ decVal (ldDigits f n) = n ∧ ldDigits f n ≠ [] ∧
    (∀ m, 0 < m → n < 10 ^ m → (ldDigits f n).length ≤ m) ∧
    (n ≠ 0 → ∀ c, (ldDigits f n).head? = some c → c ≠ 48#8) := by
  induction f generalizing n with
  | zero => omega
  | succ f ih =>
    rw [ldDigits]
    by_cases h0 : n / 10 = 0
    · rw [if_pos h0]
      refine ⟨?_, ?_, by simp, ?_, ?_⟩
      · intro c hc; simp at hc; rw [hc, digit_toNat]; omega
      · rw [decVal_eq]; simp [rdec, digit_toNat, -BitVec.ofNat_add]; omega
      · intro m hm _; simp; omega
      · intro hn c hc hc2
        simp [-BitVec.ofNat_add] at hc
        rw [← hc] at hc2
        have := congrArg BitVec.toNat hc2
        rw [digit_toNat] at this
        simp at this; omega
    · rw [if_neg h0]
      have hf1 : 0 < f := by
        rcases Nat.eq_zero_or_pos f with h | h
        · subst h; simp at hf; omega
        · exact h
      obtain ⟨i1, i2, i3, i4, i5⟩ := ih (n / 10) (by rw [Nat.pow_succ] at hf; omega) hf1
      refine ⟨?_, ?_, by simp, ?_, ?_⟩
      · intro c hc
        rcases List.mem_append.1 hc with h | h
        · exact i1 c h
        · simp at h; rw [h, digit_toNat]; omega
      · rw [decVal_eq] at i2 ⊢
        rw [List.reverse_append, List.reverse_singleton, List.singleton_append, rdec, digit_toNat, i2]; omega
      · intro m hm hlt
        have hm1 : m ≠ 1 := by intro h; subst h; omega
        have := i4 (m - 1) (by omega) (by
          have : 10 ^ m = 10 ^ (m - 1) * 10 := by rw [← Nat.pow_succ]; congr 1; omega
          omega)
        simp; omega
      · intro _ c hc
        cases hg : ldDigits f (n / 10) with
        | nil => exact absurd hg i3
        | cons a as => rw [hg] at hc i5; simp at hc; exact i5 h0 c (by simp [hc])

end Verif.Literal
