/-
Base and index register: together they are the registers of the address.
-/
import Verif.Ea.Usage

set_option linter.unusedSimpArgs false

namespace Verif.Ea

open Verif.Intnum
open Verif.Expr
open Verif.Value

/-- The number of slots. -/
def slots (vsib : Nat) : Nat := if vsib ≠ 0 then 33 else 17

/-- What base and index have to do with the multipliers found. -/
structure Inv (m : Nat → BitVec 32) (r : Regs) : Prop where
  alone : ∀ n, r.base = some n → r.index ≠ some n → m n = 1#32 ∧ r.mult n = 1#32
  both : ∀ n, r.base = some n → r.index = some n → m n = 1#32 + r.mult n
  same : ∀ n, r.base ≠ some n → r.mult n = m n

theorem findBase_ok (m : Nat → BitVec 32) : ∀ (is : List Nat) (b i : Option Nat) (bi : Option Nat × Option Nat),
    findBase m is (b, i) = .ok bi → is.Nodup → (∀ x, b = some x → x ∉ is ∧ m x = 1#32 ∧ i ≠ some x) →
    (∀ x, bi.1 = some x → m x = 1#32 ∧ bi.2 ≠ some x ∧ (b = some x ∨ x ∈ is)) ∧
    (∀ x, bi.2 = some x → i = some x ∨ (x ∈ is ∧ m x ≠ 0#32)) ∧ ∀ x ∈ is, (m x).slt 0#32 = false := by
  intro is
  induction is with
  | nil =>
    intro b i bi h _ hb
    simp only [findBase, Except.ok.injEq] at h
    subst h
    exact ⟨fun x hx => ⟨(hb x hx).2.1, (hb x hx).2.2, Or.inl hx⟩, fun x hx => Or.inl hx, by simp⟩
  | cons a is ih =>
    intro b i bi h hnd hb
    obtain ⟨ha, hnd'⟩ := List.nodup_cons.1 hnd
    simp only [findBase] at h
    split at h
    · cases h
    · rename_i hneg
      have hneg' : (m a).slt 0#32 = false := by simpa using hneg
      have hall : (∀ x ∈ is, (m x).slt 0#32 = false) → ∀ x ∈ a :: is, (m x).slt 0#32 = false := by
        intro hh x hx
        rcases List.mem_cons.1 hx with rfl | hx
        · exact hneg'
        · exact hh x hx
      split at h
      · rename_i hc
        obtain ⟨k1, k2, k3⟩ := ih _ _ bi h hnd' (by
          intro x hx
          simp only [Option.some.injEq] at hx
          subst hx
          exact ⟨ha, hc.2.1, hc.1⟩)
        refine ⟨fun x hx => ?_, fun x hx => ?_, hall k3⟩
        · obtain ⟨p1, p2, p3⟩ := k1 x hx
          refine ⟨p1, p2, Or.inr ?_⟩
          rcases p3 with p3 | p3
          · simp only [Option.some.injEq] at p3; subst p3; simp
          · exact List.mem_cons_of_mem _ p3
        · rcases k2 x hx with k | ⟨k, k'⟩
          · exact Or.inl k
          · exact Or.inr ⟨List.mem_cons_of_mem _ k, k'⟩
      · split at h
        · rename_i hc
          obtain ⟨k1, k2, k3⟩ := ih _ _ bi h hnd' (by
            intro x hx
            obtain ⟨p1, p2, p3⟩ := hb x hx
            refine ⟨fun hm => p1 (List.mem_cons_of_mem _ hm), p2, fun he => ?_⟩
            simp only [Option.some.injEq] at he
            subst he
            exact p1 (by simp))
          refine ⟨fun x hx => ?_, fun x hx => ?_, hall k3⟩
          · obtain ⟨p1, p2, p3⟩ := k1 x hx
            refine ⟨p1, p2, ?_⟩
            rcases p3 with p3 | p3
            · exact Or.inl p3
            · exact Or.inr (List.mem_cons_of_mem _ p3)
          · rcases k2 x hx with k | ⟨k, k'⟩
            · simp only [Option.some.injEq] at k
              subst k
              refine Or.inr ⟨by simp, fun hz => ?_⟩
              rw [hz] at hc
              exact absurd hc.2 (by decide)
            · exact Or.inr ⟨List.mem_cons_of_mem _ k, k'⟩
        · obtain ⟨k1, k2, k3⟩ := ih _ _ bi h hnd' (by
            intro x hx
            obtain ⟨p1, p2, p3⟩ := hb x hx
            exact ⟨fun hm => p1 (List.mem_cons_of_mem _ hm), p2, p3⟩)
          refine ⟨fun x hx => ?_, fun x hx => ?_, hall k3⟩
          · obtain ⟨p1, p2, p3⟩ := k1 x hx
            refine ⟨p1, p2, ?_⟩
            rcases p3 with p3 | p3
            · exact Or.inl p3
            · exact Or.inr (List.mem_cons_of_mem _ p3)
          · rcases k2 x hx with k | ⟨k, k'⟩
            · exact Or.inl k
            · exact Or.inr ⟨List.mem_cons_of_mem _ k, k'⟩

/-- Base and index are among the first `n` slots. -/
def Below (n : Nat) (r : Regs) : Prop := (∀ x, r.base = some x → x < n) ∧ ∀ x, r.index = some x → x < n

theorem splitIndex_inv (m : Nat → BitVec 32) (nosplit : Bool) (r : Regs) (N : Nat) (h : Inv m r) (hb : Below N r) :
    Inv m (splitIndex nosplit r) ∧ Below N (splitIndex nosplit r) := by
  obtain ⟨b, i, mu⟩ := r
  cases b with
  | some b => exact ⟨h, hb⟩
  | none =>
    cases i with
    | none => exact ⟨h, hb⟩
    | some i =>
      have hm : mu i = m i := h.same i (by simp)
      have hsame : ∀ n, mu n = m n := fun n => h.same n (by simp)
      have hi : i < N := hb.2 i rfl
      have hbelow : Below N ⟨some i, some i, mu⟩ :=
        ⟨fun x hx => by cases hx; exact hi, fun x hx => by cases hx; exact hi⟩
      have both : ∀ v, m i = 1#32 + v → Inv m ⟨some i, some i, setMult mu i v⟩ := by
        intro v hv
        refine ⟨fun n h1 h2 => absurd h1 h2, fun n h1 _ => ?_, fun n h1 => ?_⟩
        · simp only [Option.some.injEq] at h1
          subst h1
          simp [setMult, hv]
        · have : n ≠ i := fun he => h1 (by rw [he])
          simp [setMult, this, hsame]
      simp only [splitIndex]
      split
      · rename_i h1
        split
        · exact ⟨h, hb⟩
        · refine ⟨⟨fun n hn _ => ?_, fun n _ hn => (by cases hn), fun n _ => hsame n⟩,
            fun x hx => by cases hx; exact hi, fun x hx => by cases hx⟩
          simp only [Option.some.injEq] at hn
          subst hn
          exact ⟨hm ▸ h1, h1⟩
      · split
        · rename_i h2
          split
          · exact ⟨h, hb⟩
          · exact ⟨both 1 (by rw [← hm, h2]; decide), hbelow⟩
        · split
          · refine ⟨both (mu i - 1) (by rw [← hm]; grind), hbelow⟩
          · exact ⟨h, hb⟩

theorem vsibRegs_inv (m : Nat → BitVec 32) (r r' : Regs) (N : Nat) (h : Inv m r) (hne : ∀ x, r.base = some x → r.index ≠ some x)
    (hb : Below N r) (hv : vsibRegs r = .ok r') :
    Inv m r' ∧ Below N r' ∧ (∀ x, r'.base = some x → x < 16) ∧ (∃ i, r'.index = some i ∧ 17 ≤ i) ∧
      ∀ x, r'.base = some x → r'.index ≠ some x := by
  unfold vsibRegs at hv
  extract_lets q at hv
  have hq : q = if slot r.base ≥ 17 ∧ unscaled r = true then ⟨r.index, r.base, r.mult⟩ else r := rfl
  clear_value q
  split at hv
  · cases hv
  · rename_i hc
    simp only [Except.ok.injEq] at hv
    subst hv
    rename' q => r'
    rw [not_or] at hc
    have hfin : (∀ x, r'.base = some x → x < 16) ∧ ∃ i, r'.index = some i ∧ 17 ≤ i := by
      refine ⟨fun x hx => ?_, ?_⟩
      · have := hc.1; rw [hx] at this; simp only [slot] at this; omega
      · cases hi : r'.index with
        | none => have := hc.2; rw [hi] at this; simp [slot] at this
        | some i => have := hc.2; rw [hi] at this; simp only [slot] at this; exact ⟨i, rfl, by omega⟩
    suffices hs : Inv m r' ∧ Below N r' ∧ ∀ x, r'.base = some x → r'.index ≠ some x from
      ⟨hs.1, hs.2.1, hfin.1, hfin.2, hs.2.2⟩
    split at hq
    · rename_i hsw
      subst hq
      obtain ⟨b, i, mu⟩ := r
      refine ⟨⟨?_, ?_, ?_⟩, ⟨hb.2, hb.1⟩, fun x h1 h2 => hne x h2 h1⟩
      · intro n h1 h2
        dsimp only at h1 h2
        subst h1
        have h1' : mu n = 1#32 := by simpa [unscaled] using hsw.2
        exact ⟨(h.same n h2) ▸ h1', h1'⟩
      · intro n h1 h2
        exact absurd h1 (hne n h2)
      · intro n h1
        dsimp only at h1 ⊢
        by_cases hbn : b = some n
        · obtain ⟨p, q⟩ := h.alone n hbn h1
          rw [p]; exact q
        · exact h.same n hbn
    · subst hq
      exact ⟨h, hb, hne⟩

/-- The result: the multipliers are those of base and index, and the SIB byte can express them. -/
structure Picked (vsib : Nat) (m : Nat → BitVec 32) (r : Regs) : Prop where
  total : ∀ n, n < slots vsib → m n = (if r.base = some n then 1#32 else 0#32) + (if r.index = some n then r.mult n else 0#32)
  below : Below (slots vsib) r
  scale : ∀ i, r.index = some i → r.mult i = 1#32 ∨ r.mult i = 2#32 ∨ r.mult i = 4#32 ∨ r.mult i = 8#32
  notSp : r.index ≠ some 4
  notRip : r.index ≠ some 16
  ripAlone : r.base = some 16 → r.index = none
  vec : vsib ≠ 0 → (∀ b, r.base = some b → b < 16) ∧ ∃ i, r.index = some i ∧ 17 ≤ i

theorem checkRegs_ok (vsib : Nat) (m : Nat → BitVec 32) (r r' : Regs) (h : Inv m r) (hb : Below (slots vsib) r)
    (hv : vsib ≠ 0 → (∀ b, r.base = some b → b < 16) ∧ ∃ i, r.index = some i ∧ 17 ≤ i)
    (hc : checkRegs (slots vsib) r = .ok r') : Picked vsib m r' := by
  unfold checkRegs at hc
  split at hc
  · cases hc
  · rename_i hother
    split at hc
    · cases hc
    · rename_i hscale
      unfold swapSp at hc
      have other : ∀ n, n < slots vsib → r.base ≠ some n → r.index ≠ some n → r.mult n = 0#32 := by
        intro n hn h1 h2
        by_contra h3
        apply hother
        rw [List.any_eq_true]
        exact ⟨n, List.mem_range.2 hn, by simp [h1, h2, h3]⟩
      have total : ∀ n, n < slots vsib → m n = (if r.base = some n then 1#32 else 0#32) + (if r.index = some n then r.mult n else 0#32) := by
        intro n hn
        by_cases h1 : r.base = some n
        · by_cases h2 : r.index = some n
          · rw [if_pos h1, if_pos h2]; exact h.both n h1 h2
          · rw [if_pos h1, if_neg h2, (h.alone n h1 h2).1]; rfl
        · by_cases h2 : r.index = some n
          · rw [if_neg h1, if_pos h2, h.same n h1]; grind
          · rw [if_neg h1, if_neg h2, ← h.same n h1, other n hn h1 h2]; rfl
      have scale : ∀ i, r.index = some i → r.mult i = 1#32 ∨ r.mult i = 2#32 ∨ r.mult i = 4#32 ∨ r.mult i = 8#32 := by
        intro i hi
        simp only [badScale, hi] at hscale
        by_contra hno
        simp only [not_or] at hno
        apply hscale
        simp [hno.1, hno.2.1, hno.2.2.1, hno.2.2.2]
      by_cases h4 : r.index = some 4
      · rw [if_pos h4] at hc
        split at hc
        · rename_i e he
          cases hc
        · rename_i r2 he
          split at he
          · cases he
          · rename_i hno
            rw [not_or] at hno
            simp only [Except.ok.injEq] at he
            subst he
            split at hc
            · cases hc
            · rename_i hrip
              rw [not_or] at hrip
              simp only [Except.ok.injEq] at hc
              subst hc
              dsimp only at hrip
              have hm4 : r.mult 4 = 1#32 := by
                rcases scale 4 h4 with h | h | h | h
                · exact h
                all_goals rw [h] at hno; exact absurd (by decide) hno.1
              refine ⟨?_, ⟨fun x hx => ?_, hb.1⟩, ?_, hno.2, hrip.1, fun h => (by cases h), fun hvs => ?_⟩
              · intro n hn
                have := total n hn
                dsimp only
                by_cases h1 : r.base = some n
                · have h2 : r.index ≠ some n := by
                    rw [h4]; intro he; simp only [Option.some.injEq] at he; subst he; exact hno.2 h1
                  have hne : (some 4 : Option Nat) ≠ some n := by rw [← h4]; exact h2
                  rw [if_neg hne, if_pos h1, (h.alone n h1 h2).1, (h.alone n h1 h2).2]; rfl
                · rw [if_neg h1] at this
                  rw [if_neg h1, this]
                  by_cases h2 : r.index = some n
                  · have : n = 4 := by rw [h4] at h2; simpa using h2.symm
                    subst this
                    rw [if_pos h2, if_pos rfl, hm4]; rfl
                  · have hne : (some 4 : Option Nat) ≠ some n := by rw [← h4]; exact h2
                    rw [if_neg h2, if_neg hne]
              · simp only [Option.some.injEq] at hx
                subst hx
                exact hb.2 4 h4
              · intro i hi
                dsimp only at hi ⊢
                have h2 : r.index ≠ some i := by
                  rw [h4]; intro he; simp only [Option.some.injEq] at he; subst he; exact hno.2 hi
                exact Or.inl (h.alone i hi h2).2
              · obtain ⟨_, i, hi, hge⟩ := hv hvs
                rw [h4] at hi
                simp only [Option.some.injEq] at hi
                omega
      · rw [if_neg h4] at hc
        dsimp only at hc
        split at hc
        · cases hc
        · rename_i hrip
          rw [not_or] at hrip
          simp only [Except.ok.injEq] at hc
          subst hc
          refine ⟨total, hb, scale, h4, hrip.1, fun hb16 => ?_, hv⟩
          by_contra hne
          exact hrip.2 ⟨hb16, hne⟩

theorem pickRegs_ok (vsib : Nat) (nosplit : Bool) (m : Nat → BitVec 32) (index : Option Nat) (r : Regs)
    (hz : ∀ n, slots vsib ≤ n → m n = 0#32) (h : pickRegs vsib nosplit m index = .ok r) : Picked vsib m r := by
  have hix : ∀ x, usedIndex m index = some x → m x ≠ 0#32 := by
    intro x hx
    unfold usedIndex at hx
    split at hx
    · split at hx
      · cases hx
      · rename_i hne
        simp only [Option.some.injEq] at hx
        subst hx; exact hne
    · cases hx
  simp only [pickRegs] at h
  generalize usedIndex m index = ix at hix h
  have hcount : (if vsib ≠ 0 then 33 else 17) = slots vsib := rfl
  rw [hcount] at h
  cases hf : findBase m (List.range (slots vsib)) (none, ix) with
  | error e => rw [hf] at h; cases h
  | ok bi =>
    rw [hf] at h
    obtain ⟨b, i⟩ := bi
    obtain ⟨k1, k2, k3⟩ := findBase_ok m _ none ix (b, i) hf List.nodup_range (by simp)
    dsimp only at k1 k2 h
    have hib : ∀ x, i = some x → x < slots vsib := by
      intro x hx
      rcases k2 x hx with h | ⟨h, _⟩
      · by_contra hge
        exact hix x h (hz x (by omega))
      · exact List.mem_range.1 h
    have hbb : ∀ x, b = some x → x < slots vsib := by
      intro x hx
      rcases (k1 x hx).2.2 with h | h
      · cases h
      · exact List.mem_range.1 h
    have hinv : Inv m ⟨b, i, m⟩ := by
      refine ⟨fun n h1 _ => ⟨(k1 n h1).1, (k1 n h1).1⟩, fun n h1 h2 => absurd h2 (k1 n h1).2.1, fun _ _ => rfl⟩
    split at h
    · rename_i hvs
      cases hv : vsibRegs ⟨b, i, m⟩ with
      | error e => rw [hv] at h; cases h
      | ok r2 =>
        rw [hv] at h
        obtain ⟨v1, v2, v3, v4, v5⟩ := vsibRegs_inv m _ r2 (slots vsib) hinv (fun x hx => (k1 x hx).2.1) ⟨hbb, hib⟩ hv
        exact checkRegs_ok vsib m r2 r v1 v2 (fun _ => ⟨v3, v4⟩) h
    · rename_i hvs
      obtain ⟨s1, s2⟩ := splitIndex_inv m nosplit ⟨b, i, m⟩ (slots vsib) hinv ⟨hbb, hib⟩
      exact checkRegs_ok vsib m _ r s1 s2 (fun h => absurd h hvs) h

/-! ### From multipliers to values -/

/-- Sum over the first `n` slots. -/
def slotSum (f : Nat → Word) : Nat → Word
  | 0 => 0
  | n + 1 => slotSum f n + f n

theorem slotSum_add (f g : Nat → Word) (n : Nat) : slotSum (fun j => f j + g j) n = slotSum f n + slotSum g n := by
  induction n with
  | zero => simp [slotSum]
  | succ n ih => simp only [slotSum, ih]; grind

theorem slotSum_single (k : Nat) (w : Word) (n : Nat) : slotSum (fun j => if j = k then w else 0) n = if k < n then w else 0 := by
  induction n with
  | zero => simp [slotSum]
  | succ n ih =>
    simp only [slotSum, ih]
    by_cases h1 : k < n
    · rw [if_pos h1, if_neg (by omega), if_pos (by omega)]; grind
    · by_cases h2 : n = k
      · rw [if_neg h1, if_pos h2, if_pos (by omega)]; grind
      · rw [if_neg h1, if_neg h2, if_neg (by omega)]; grind

theorem slotSum_congr (f g : Nat → Word) (n : Nat) (h : ∀ j, j < n → f j = g j) : slotSum f n = slotSum g n := by
  induction n with
  | zero => rfl
  | succ n ih => simp only [slotSum, ih (fun j hj => h j (by omega)), h n (by omega)]

/-- The sum of the multipliers of a slot. -/
def coef (getReg : Nat → Option Nat) (n : Nat) : List (Nat × Intnum) → Int
  | [] => 0
  | (r, i) :: us => (if getReg r = some n then val i else 0) + coef getReg n us

theorem coef_bound (getReg : Nat → Option Nat) (n : Nat) (us : List (Nat × Intnum)) : (coef getReg n us).natAbs ≤ total us := by
  induction us with
  | nil => simp [coef, total]
  | cons x us ih =>
    obtain ⟨r, i⟩ := x
    simp only [coef, total]
    split <;> omega

theorem getInt_small (i : Intnum) (hc : Canon i) (h : (val i).natAbs < 2 ^ 31) : (getInt i).toInt = val i := by
  rw [get_int_partial i hc, if_neg (by omega), if_pos (by omega)]

theorem getInt32 (i : Intnum) (hc : Canon i) (h : (val i).natAbs < 2 ^ 31) :
    (getInt i).setWidth 32 = BitVec.ofInt 32 (val i) := by
  rw [← getInt_small i hc h]
  apply BitVec.eq_of_toInt_eq
  rw [BitVec.toInt_ofInt, BitVec.toInt_setWidth]
  exact Int.bmod_toNat_eq _
where
  Int.bmod_toNat_eq (x : BitVec 64) : (x.toNat : Int).bmod (2 ^ 32) = x.toInt.bmod (2 ^ 32) := by
    rw [BitVec.toInt_eq_toNat_bmod]
    rw [Int.bmod_bmod_of_dvd (by decide)]

theorem addUses_coef (getReg : Nat → Option Nat) (us : List (Nat × Intnum)) (hc : ∀ x ∈ us, Canon x.2) :
    ∀ m n, total us < 2 ^ 31 → addUses getReg m us n = m n + BitVec.ofInt 32 (coef getReg n us) := by
  induction us with
  | nil => intro m n _; simp [addUses, coef]
  | cons x us ih =>
    obtain ⟨r, i⟩ := x
    intro m n ht
    simp only [total] at ht
    simp only [addUses, coef]
    rw [ih (fun x hx => hc x (List.mem_cons_of_mem _ hx)) _ n (by omega), BitVec.ofInt_add]
    have hi := getInt32 i (hc (r, i) (by simp)) (by omega)
    cases hr : getReg r with
    | none => simp
    | some k =>
      simp only [setMult, Option.some.injEq]
      by_cases hk : n = k
      · subst hk
        rw [if_pos rfl, if_pos rfl, hi]; grind
      · rw [if_neg hk, if_neg (fun h => hk h.symm)]; simp

theorem usesVal_slots (ρ : Env) (getReg : Nat → Option Nat) (V : Nat → Word) (N : Nat) (us : List (Nat × Intnum))
    (h : ∀ x ∈ us, ∃ n, getReg x.1 = some n ∧ n < N ∧ ρ.reg x.1 = V n) :
    usesVal ρ us = slotSum (fun n => BitVec.ofInt 256 (coef getReg n us) * V n) N := by
  induction us with
  | nil =>
    simp only [usesVal, coef]
    have : ∀ n, slotSum (fun n => BitVec.ofInt 256 0 * V n) n = 0 := by
      intro n
      induction n with
      | zero => rfl
      | succ n ih => simp only [slotSum, ih]; simp
    exact (this N).symm
  | cons x us ih =>
    obtain ⟨r, i⟩ := x
    obtain ⟨n, h1, h2, h3⟩ := h (r, i) (by simp)
    dsimp only at h1 h3
    simp only [usesVal]
    rw [ih (fun x hx => h x (List.mem_cons_of_mem _ hx))]
    have e : (fun k => BitVec.ofInt 256 (coef getReg k ((r, i) :: us)) * V k) =
        fun k => (if k = n then BitVec.ofInt 256 (val i) * V n else 0) + BitVec.ofInt 256 (coef getReg k us) * V k := by
      funext k
      simp only [coef, h1, BitVec.ofInt_add, Option.some.injEq]
      by_cases hk : k = n
      · subst hk
        rw [if_pos rfl, if_pos rfl]; grind
      · rw [if_neg (fun h => hk h.symm), if_neg hk]; simp
    rw [e, slotSum_add, slotSum_single, if_pos h2, h3]
    grind

/-- The value of base and index. -/
def regsVal (V : Nat → Word) (r : Regs) : Word :=
  (match r.base with | some b => V b | none => 0) +
    (match r.index with | some i => BitVec.ofInt 256 (r.mult i).toInt * V i | none => 0)

theorem picked_val (V : Nat → Word) (vsib : Nat) (m : Nat → BitVec 32) (r : Regs) (h : Picked vsib m r) :
    slotSum (fun n => BitVec.ofInt 256 (m n).toInt * V n) (slots vsib) = regsVal V r := by
  have e : ∀ n, n < slots vsib → BitVec.ofInt 256 (m n).toInt * V n =
      (if r.base = some n then V n else 0) + (if r.index = some n then BitVec.ofInt 256 (r.mult n).toInt * V n else 0) := by
    intro n hn
    have ht := h.total n hn
    by_cases h1 : r.base = some n
    · by_cases h2 : r.index = some n
      · rw [if_pos h1, if_pos h2] at *
        have : (m n).toInt = 1 + (r.mult n).toInt := by
          rcases h.scale n h2 with hs | hs | hs | hs <;> rw [ht, hs] <;> decide
        rw [this, BitVec.ofInt_add]
        have : (BitVec.ofInt 256 1 : Word) = 1 := by decide
        rw [this]; grind
      · rw [if_pos h1, if_neg h2] at *
        rw [ht]
        have : (BitVec.ofInt 256 (1#32 + 0#32).toInt : Word) = 1 := by decide
        rw [this]; grind
    · by_cases h2 : r.index = some n
      · rw [if_neg h1, if_pos h2] at *
        rw [ht]
        have : (0#32 + r.mult n) = r.mult n := by simp
        rw [this]; grind
      · rw [if_neg h1, if_neg h2] at *
        rw [ht]
        have : (BitVec.ofInt 256 (0#32 + 0#32).toInt : Word) = 0 := by decide
        rw [this]; grind
  rw [slotSum_congr _ _ _ e, slotSum_add]
  unfold regsVal
  congr 1
  · cases hb : r.base with
    | none =>
      have : ∀ n, slotSum (fun j => if (none : Option Nat) = some j then V j else 0) n = 0 := by
        intro n; induction n with
        | zero => rfl
        | succ n ih => simp only [slotSum, ih]; simp
      exact this _
    | some b =>
      have : (fun j => if some b = some j then V j else 0) = fun j => if j = b then V b else 0 := by
        funext j; by_cases hj : j = b
        · subst hj; simp
        · rw [if_neg (fun h => hj (by simpa using h.symm)), if_neg hj]
      rw [this, slotSum_single, if_pos (h.below.1 b hb)]
  · cases hi : r.index with
    | none =>
      have : ∀ n, slotSum (fun j => if (none : Option Nat) = some j then BitVec.ofInt 256 (r.mult j).toInt * V j else 0) n = 0 := by
        intro n; induction n with
        | zero => rfl
        | succ n ih => simp only [slotSum, ih]; simp
      exact this _
    | some i =>
      have : (fun j => if some i = some j then BitVec.ofInt 256 (r.mult j).toInt * V j else 0) =
          fun j => if j = i then BitVec.ofInt 256 (r.mult i).toInt * V i else 0 := by
        funext j; by_cases hj : j = i
        · subst hj; simp
        · rw [if_neg (fun h => hj (by simpa using h.symm)), if_neg hj]
      rw [this, slotSum_single, if_pos (h.below.2 i hi)]

/-- The registers taken out are base and index. -/
theorem regs_agree (ρ : Env) (getReg : Nat → Option Nat) (V : Nat → Word) (vsib : Nat) (nosplit : Bool) (pcrel : Bool)
    (index : Option Nat) (us : List (Nat × Intnum)) (r : Regs)
    (hslot : ∀ x ∈ us, ∃ n, getReg x.1 = some n ∧ n < slots vsib ∧ ρ.reg x.1 = V n)
    (hc : ∀ x ∈ us, Canon x.2) (ht : total us < 2 ^ 31 - 1)
    (h : pickRegs vsib nosplit (addUses getReg (startMult pcrel) us) index = .ok r) :
    Picked vsib (addUses getReg (startMult pcrel) us) r ∧
    (∀ n, r.base = some n ∨ r.index = some n → (pcrel = true ∧ n = 16) ∨ ∃ u ∈ us, getReg u.1 = some n) ∧
    usesVal ρ us + (if pcrel then V 16 else 0) = regsVal V r := by
  have hm : ∀ n, addUses getReg (startMult pcrel) us n = startMult pcrel n + BitVec.ofInt 32 (coef getReg n us) :=
    fun n => addUses_coef getReg us hc _ n (by omega)
  have hstart : ∀ n, startMult pcrel n = BitVec.ofInt 32 (if pcrel = true ∧ n = 16 then 1 else 0) := by
    intro n
    unfold startMult
    cases pcrel with
    | false => simp
    | true =>
      by_cases hn : n = 16
      · subst hn; simp [setMult]
      · simp [setMult, hn]
  have hz : ∀ n, slots vsib ≤ n → addUses getReg (startMult pcrel) us n = 0#32 := by
    intro n hn
    have h16 : n ≠ 16 := by
      have : 17 ≤ slots vsib := by unfold slots; split <;> omega
      omega
    have hc0 : coef getReg n us = 0 := by
      clear ht h hm hc
      induction us with
      | nil => rfl
      | cons x us ih =>
        obtain ⟨q, i⟩ := x
        obtain ⟨k, h1, h2, _⟩ := hslot (q, i) (by simp)
        dsimp only at h1
        simp only [coef, ih (fun x hx => hslot x (List.mem_cons_of_mem _ hx)), h1, Option.some.injEq]
        rw [if_neg (by omega)]; rfl
    rw [hm, hc0, hstart, if_neg (by simp [h16])]; rfl
  have hp := pickRegs_ok vsib nosplit _ index r hz h
  have hused : ∀ n, addUses getReg (startMult pcrel) us n ≠ 0#32 → (pcrel = true ∧ n = 16) ∨ ∃ u ∈ us, getReg u.1 = some n := by
    intro n hn
    by_contra hno
    rw [not_or] at hno
    apply hn
    have hc0 : coef getReg n us = 0 := by
      clear ht h hm hc hz hp hn hslot
      induction us with
      | nil => rfl
      | cons x us ih =>
        obtain ⟨q, i⟩ := x
        have h1 : getReg q ≠ some n := fun he => hno.2 ⟨(q, i), by simp, he⟩
        have h2 := ih ⟨hno.1, fun ⟨u, hu, he⟩ => hno.2 ⟨u, List.mem_cons_of_mem _ hu, he⟩⟩
        simp only [coef, h2, if_neg h1]; rfl
    rw [hm, hc0, hstart, if_neg hno.1]; rfl
  refine ⟨hp, fun n hn => hused n ?_, ?_⟩
  · have hlt : n < slots vsib := by
      rcases hn with hn | hn
      · exact hp.below.1 n hn
      · exact hp.below.2 n hn
    rw [hp.total n hlt]
    by_cases h1 : r.base = some n
    · by_cases h2 : r.index = some n
      · rw [if_pos h1, if_pos h2]
        rcases hp.scale n h2 with hs | hs | hs | hs <;> rw [hs] <;> decide
      · rw [if_pos h1, if_neg h2]; decide
    · have h2 : r.index = some n := hn.resolve_left h1
      rw [if_neg h1, if_pos h2]
      rcases hp.scale n h2 with hs | hs | hs | hs <;> rw [hs] <;> decide
  rw [← picked_val V vsib _ r hp, usesVal_slots ρ getReg V (slots vsib) us hslot]
  have htoInt : ∀ n, (addUses getReg (startMult pcrel) us n).toInt = (if pcrel = true ∧ n = 16 then 1 else 0) + coef getReg n us := by
    intro n
    rw [hm, hstart, ← BitVec.ofInt_add, BitVec.toInt_ofInt]
    have := coef_bound getReg n us
    apply Int.bmod_eq_of_le <;> split <;> omega
  have e : (fun n => BitVec.ofInt 256 (addUses getReg (startMult pcrel) us n).toInt * V n) =
      fun n => (if n = 16 then (if pcrel then V 16 else 0) else 0) + BitVec.ofInt 256 (coef getReg n us) * V n := by
    funext n
    rw [htoInt, BitVec.ofInt_add]
    by_cases hn : n = 16
    · subst hn
      cases pcrel with
      | false => simp
      | true =>
        have : (BitVec.ofInt 256 1 : Word) = 1 := by decide
        simp only [and_self, if_true, this]; grind
    · rw [if_neg (by simp [hn]), if_neg hn]; simp
  rw [e, slotSum_add, slotSum_single, if_pos (show 16 < slots vsib by unfold slots; split <;> omega)]
  exact BitVec.add_comm _ _

end Verif.Ea
