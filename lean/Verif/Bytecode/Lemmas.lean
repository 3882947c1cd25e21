import Verif.Bytecode.Spec
import Verif.Intnum.Props
set_option linter.unusedSimpArgs false
set_option linter.unusedVariables false
namespace Verif.Bytecode
open Verif.Intnum (val leVal leb Fits getSized getLeb128 sizeLeb128 Intnum)

/-! ### align -/

theorem land_pow (n k : Nat) : n &&& (2 ^ k - 1) = n % 2 ^ k := Nat.and_two_pow_sub_one_eq_mod n k

theorem alignEnd_pow (k n : Nat) : LeastMultiple (2 ^ k) n (alignEnd (2 ^ k) n) := by
  have hp : 0 < 2 ^ k := Nat.two_pow_pos k
  unfold alignEnd
  rw [land_pow]
  generalize 2 ^ k = b at *
  have hlt := Nat.mod_lt n hp
  have hdm := Nat.div_add_mod n b
  split
  · rename_i h
    have e : n - n % b + b = b * (n / b + 1) := by rw [Nat.mul_add]; omega
    refine ⟨by omega, by rw [e]; exact Nat.mul_mod_right _ _, ?_⟩
    intro m hm hmb
    have hd := Nat.div_add_mod m b
    rw [e]
    have : n / b < m / b := by
      rcases Nat.lt_or_ge (n / b) (m / b) with h1 | h1
      · exact h1
      · exfalso
        have h2 : b * (m / b) ≤ b * (n / b) := Nat.mul_le_mul_left b h1
        omega
    have h3 : b * (n / b + 1) ≤ b * (m / b) := Nat.mul_le_mul_left b this
    omega
  · rename_i h
    refine ⟨Nat.le_refl _, by omega, fun m hm _ => hm⟩

theorem alignEnd_ge (b n : Nat) (hb : 0 < b) : n ≤ alignEnd b n := by
  unfold alignEnd
  split
  · have : n &&& (b - 1) ≤ b - 1 := Nat.and_le_right
    have : n &&& (b - 1) ≤ n := Nat.and_le_left
    omega
  · exact Nat.le_refl _

/-! ### code fill -/

/-- A table whose entries have at least their index's number of bytes. -/
def FillOk (t : FillTable) : Prop := ∀ (n : Nat) (p : List Byte), t.getD n none = some p → n ≤ p.length

theorem fillCopy_ok (t : FillTable) (n : Nat) (p : List Byte) (hn : t.getD n none = some p) (hl : n ≤ p.length) :
    fillCopy t n = .ok (p.take n) := by
  unfold fillCopy; rw [hn]; simp [hl]

theorem fillMax_some (t : FillTable) (n : Nat) (h : fillMax t n ≠ 0) :
    ∃ p, t.getD (fillMax t n) none = some p := by
  induction n with
  | zero => exact absurd rfl h
  | succ n ih =>
    unfold fillMax at h ⊢
    cases hp : t.getD (n + 1) none with
    | some p => simp only [hp]; exact ⟨p, by first | rfl | exact hp⟩
    | none => simp only [hp] at h ⊢; exact ih h

theorem fillLoop_spec (t : FillTable) (mx : Nat) (p : List Byte) (hp : t.getD mx none = some p) (hl : mx ≤ p.length)
    (h0 : 0 < mx) (fuel len : Nat) (hf : len ≤ fuel) :
    ∃ k r, fillLoop t mx fuel len = .ok ((List.replicate k (p.take mx)).flatten, r) ∧ len = k * mx + r ∧
      r ≤ mx ∧ (0 < len → 0 < r) := by
  induction fuel generalizing len with
  | zero => exact ⟨0, len, by simp [fillLoop], by simp, by omega, id⟩
  | succ f ih =>
    unfold fillLoop
    split
    · rename_i h
      obtain ⟨k, r, h1, h2, h3, h4⟩ := ih (len - mx) (by omega)
      refine ⟨k + 1, r, ?_, ?_, h3, fun _ => h4 (by omega)⟩
      · rw [fillCopy_ok t mx p hp hl, h1]
        simp [Res.bind, List.replicate_succ]
      · rw [Nat.add_mul]; omega
    · exact ⟨0, len, by simp, by simp, by omega, id⟩

theorem codeFill_spec (t : FillTable) (ht : FillOk t) (hall : ∀ n, 0 < n → n ≤ 15 → (t.getD n none).isSome)
    (len : Nat) (h0 : 0 < len) :
    ∃ k r p q, codeFill t len = .ok ((List.replicate k (p.take 15)).flatten ++ q.take r) ∧
      t.getD 15 none = some p ∧ t.getD r none = some q ∧ len = k * 15 + r ∧ 0 < r ∧ r ≤ 15 ∧ 15 ≤ p.length ∧
      r ≤ q.length := by
  have hm : fillMax t 15 = 15 := by
    have := hall 15 (by omega) (by omega)
    unfold fillMax
    cases h : t.getD (14 + 1) none with
    | some _ => rfl
    | none => rw [show 14 + 1 = 15 from rfl] at h; rw [h] at this; cases this
  obtain ⟨p, hp⟩ := Option.isSome_iff_exists.1 (hall 15 (by omega) (by omega))
  obtain ⟨k, r, h1, h2, h3, h4⟩ := fillLoop_spec t 15 p hp (ht 15 p hp) (by omega) len len (Nat.le_refl _)
  have hr := h4 h0
  obtain ⟨q, hq⟩ := Option.isSome_iff_exists.1 (hall r hr h3)
  refine ⟨k, r, p, q, ?_, hp, hq, h2, hr, h3, ht 15 p hp, ht r q hq⟩
  unfold codeFill
  simp only [hm]
  rw [if_neg (by omega), h1]
  simp only [Res.bind, hq]
  rw [fillCopy_ok t r q hq (ht r q hq)]

theorem flatten_replicate_length (k : Nat) (p : List Byte) : (List.replicate k p).flatten.length = k * p.length := by
  induction k with
  | zero => simp
  | succ k ih => rw [List.replicate_succ, List.flatten_cons, List.length_append, ih, Nat.add_mul]; omega

theorem codeFill_length (t : FillTable) (ht : FillOk t) (hall : ∀ n, 0 < n → n ≤ 15 → (t.getD n none).isSome)
    (len : Nat) (h0 : 0 < len) : ∃ bs, codeFill t len = .ok bs ∧ bs.length = len := by
  obtain ⟨k, r, p, q, h, hp, hq, he, hr0, hr, hpl, hql⟩ := codeFill_spec t ht hall len h0
  refine ⟨_, h, ?_⟩
  rw [List.length_append, flatten_replicate_length, List.length_take, List.length_take, Nat.min_eq_left hpl,
    Nat.min_eq_left hql]
  omega

/-! ### running through padding -/

theorem nopStep_append (mode : Nat) (a b : List Byte) (n : Nat) (h : nopStep mode a = some n) (hn : n ≤ a.length) :
    nopStep mode (a ++ b) = some n := by
  induction a generalizing n with
  | nil => simp [nopStep] at h
  | cons x xs ih =>
    rw [List.cons_append]
    unfold nopStep at h ⊢
    split at h
    · rename_i hx; rw [if_pos hx]; exact h
    rename_i hx; rw [if_neg hx]
    split at h
    · rename_i hp
      rw [if_pos hp]
      cases hs : nopStep mode xs with
      | none => rw [hs] at h; simp at h
      | some k =>
        rw [hs] at h
        simp only [Option.map_some, Option.some.injEq] at h
        rw [ih k hs (by simp only [List.length_cons] at hn; omega)]
        simp [h]
    rename_i hp; rw [if_neg hp]
    split at h
    · rename_i he
      rw [if_pos he]
      cases xs with
      | nil => simp at h
      | cons d ds => simpa using h
    rename_i he; rw [if_neg he]
    split at h
    · rename_i ho
      rw [if_pos ho]
      match xs, h with
      | [], h => simp at h
      | [_], h => simp at h
      | o :: m :: rest, h =>
        simp only [List.cons_append] at h ⊢
        split at h
        · rename_i hc
          rw [if_pos hc]
          split at h
          · rename_i hl
            rw [if_pos (by rw [List.length_append]; omega)]
            exact h
          · cases h
        · cases h
    rename_i ho; rw [if_neg ho]
    split at h
    · cases h
    rename_i hm; rw [if_neg hm]
    split at h
    · rename_i h89
      rw [if_pos h89]
      cases xs with
      | nil => simp at h
      | cons d ds => simpa using h
    rename_i h89; rw [if_neg h89]
    split at h
    · rename_i h8d
      rw [if_pos h8d]
      cases xs with
      | nil => simp at h
      | cons m ds =>
        simp only [List.cons_append] at h ⊢
        split at h
        · rename_i hc
          rw [if_pos ?_]
          · exact h
          · refine ⟨by simp only [List.length_cons, List.length_append] at hc ⊢; omega, ?_⟩
            rw [show m :: (ds ++ b) = (m :: ds) ++ b from rfl, List.take_append_of_le_length hc.1]
            exact hc.2
        · cases h
    · cases h

theorem RunsThrough.append (mode : Nat) (a b : List Byte) (ha : RunsThrough mode a) (hb : RunsThrough mode b) :
    RunsThrough mode (a ++ b) := by
  induction ha with
  | done => exact hb
  | step bs n hs hn _ ih =>
    refine .step _ n (nopStep_append mode bs b n hs hn) (by rw [List.length_append]; omega) ?_
    rw [List.drop_append_of_le_length hn]
    exact ih

theorem RunsThrough.replicate (mode k : Nat) (a : List Byte) (ha : RunsThrough mode a) :
    RunsThrough mode (List.replicate k a).flatten := by
  induction k with
  | zero => exact .done
  | succ k ih => rw [List.replicate_succ, List.flatten_cons]; exact ha.append _ _ _ ih

/-- A decision procedure for `RunsThrough`. -/
def runsThrough (mode : Nat) : Nat → List Byte → Bool
  | _, [] => true
  | 0, _ => false
  | f + 1, bs => match nopStep mode bs with
    | some n => decide (n ≤ bs.length) && runsThrough mode f (bs.drop n)
    | none => false

theorem runsThrough_sound (mode f : Nat) (bs : List Byte) (h : runsThrough mode f bs = true) :
    RunsThrough mode bs := by
  induction f generalizing bs with
  | zero => cases bs with
    | nil => exact .done
    | cons => cases h
  | succ f ih =>
    cases bs with
    | nil => exact .done
    | cons b bs =>
      unfold runsThrough at h
      cases hs : nopStep mode (b :: bs) with
      | none => simp only [hs] at h; cases h
      | some n =>
        simp only [hs, Bool.and_eq_true, decide_eq_true_eq] at h
        exact .step _ n hs h.1 (ih _ h.2)

/-! ### data -/

theorem sized_spec (i : Intnum) (size : Nat) (hi : Fits i) (hs : size ≤ 32) :
    ∃ bs, sized i size = .ok bs ∧ bs.length = size ∧ (leVal bs : Int) = val i % 256 ^ size := by
  obtain ⟨out, h1, h2, h3⟩ := Verif.Intnum.get_sized_field i (List.replicate size 0) (size * 8) 0 1 hi
    (by rw [List.length_replicate]; exact hs)
  rw [List.length_replicate] at h2 h3
  refine ⟨out.buf, by unfold sized; rw [h1], h2, ?_⟩
  have := Verif.Intnum.leVal_of_bits out.buf (val i) (by
    intro j hj
    rw [h2] at hj
    rw [h3 j hj, if_pos ⟨by simp, by simp; omega⟩]
    simp)
  rw [this, h2, show (256 : Int) = 2 ^ 8 by decide, ← Int.pow_mul]

theorem leb_nonempty (sgn : Bool) (bs : List Byte) (r : Int × Nat) (h : leb sgn bs = some r) : bs ≠ [] := by
  intro e; subst e; cases sgn <;> simp [leb, Verif.Intnum.uleb, Verif.Intnum.sleb] at h

/-- The constants LEB128 can encode (see `Verif.Intnum.leb_encode_partial`). -/
def LebOk (sgn : Bool) (i : Intnum) : Prop :=
  Fits i ∧ (sgn = false → 0 ≤ val i) ∧ (sgn = true → -(2 ^ 251) < val i)

theorem lebBytes_spec (i : Intnum) (sgn : Bool) (h : LebOk sgn i) :
    ∃ bs, lebBytes i sgn = .ok bs ∧ bs.length = (sizeLeb128 i sgn).toNat ∧ leb sgn bs = some (val i, bs.length) ∧
      0 < bs.length := by
  obtain ⟨bs, h1, h2, h3⟩ := Verif.Intnum.leb_encode_partial i sgn h.1 h.2.1 h.2.2
  refine ⟨bs, by unfold lebBytes; rw [h1], h2, h3, ?_⟩
  exact List.length_pos_iff.2 (leb_nonempty _ _ _ h3)

/-- A data item within the range of the theorems. -/
def DvOk (env : Env) (arch : Bool) (size : Nat) (d : Dv) : Prop :=
  (d.mult = none ∨ ∃ n : Int, 0 < n ∧ d.mult = some (.known n)) ∧
  (match d.item with
    | .empty => True
    | .expr .value (some i) x =>
      if arch ∨ size = 1 then Fits i ∧ 1 ≤ size ∧ size ≤ 32 else ∃ bs, env.out x size = some bs ∧ bs.length = size
    | .expr .value none x => ∃ bs, env.out x size = some bs ∧ bs.length = size
    | .expr .uleb (some i) _ => LebOk false i
    | .expr .sleb (some i) _ => LebOk true i
    | .expr .uleb none x => size = 0 ∧ ∃ i, env.const x = some i ∧ LebOk false i
    | .expr .sleb none x => size = 0 ∧ ∃ i, env.const x = some i ∧ LebOk true i
    | .raw bs => 1 ≤ size ∧ (bs = [] → d.mult = none)
    | .reserve => 1 ≤ size)

/-- The output so far: bytes emitted and length computed for a list of finished items. -/
def Acc (env : Env) (outs : List OutDv) (b : List Byte) : Prop :=
  dataBytes env (outs.map OutDv.finalize) = .ok b ∧ dataLen env (outs.map OutDv.finalize) = .ok b.length

theorem dataBytes_append (env : Env) (xs ys : List OutDv) (a b : List Byte)
    (hx : dataBytes env xs = .ok a) (hy : dataBytes env ys = .ok b) : dataBytes env (xs ++ ys) = .ok (a ++ b) := by
  induction xs generalizing a with
  | nil => simp [dataBytes] at hx; subst hx; simpa using hy
  | cons x xs ih =>
    rw [List.cons_append]
    unfold dataBytes at hx ⊢
    cases hm : getMul x.mult with
    | error e => simp only [hm] at hx ⊢; exact ih a hx
    | ok m =>
      simp only [hm] at hx ⊢
      split
      · rename_i h0; rw [if_pos h0] at hx; exact ih a hx
      · rename_i h0; rw [if_neg h0] at hx
        cases hb : x.bytes env with
        | ok c =>
          rw [hb] at hx
          simp only [Res.bind] at hx ⊢
          cases hr : dataBytes env xs with
          | ok r =>
            rw [hr] at hx
            simp only [Res.ok.injEq] at hx
            rw [ih r hr]
            simp [← hx]
          | err m => rw [hr] at hx; cases hx
          | fault => rw [hr] at hx; cases hx
          | ub => rw [hr] at hx; cases hx
        | err m => rw [hb] at hx; cases hx
        | fault => rw [hb] at hx; cases hx
        | ub => rw [hb] at hx; cases hx

theorem dataLen_append (env : Env) (xs ys : List OutDv) (a b : Nat)
    (hx : dataLen env xs = .ok a) (hy : dataLen env ys = .ok b) : dataLen env (xs ++ ys) = .ok (a + b) := by
  induction xs generalizing a with
  | nil => simp [dataLen] at hx; subst hx; simpa using hy
  | cons x xs ih =>
    rw [List.cons_append]
    unfold dataLen at hx ⊢
    cases hb : x.len env with
    | ok c =>
      rw [hb] at hx
      simp only [Res.bind] at hx ⊢
      cases hr : dataLen env xs with
      | ok r =>
        rw [hr] at hx
        simp only [Res.ok.injEq] at hx
        rw [ih r hr]
        simp only [Res.ok.injEq]; omega
      | err m => rw [hr] at hx; cases hx
      | fault => rw [hr] at hx; cases hx
      | ub => rw [hr] at hx; cases hx
    | err m => rw [hb] at hx; cases hx
    | fault => rw [hb] at hx; cases hx
    | ub => rw [hb] at hx; cases hx

theorem Acc.append {env : Env} {xs ys : List OutDv} {a b : List Byte} (hx : Acc env xs a) (hy : Acc env ys b) :
    Acc env (xs ++ ys) (a ++ b) := by
  refine ⟨?_, ?_⟩
  · rw [List.map_append]; exact dataBytes_append env _ _ _ _ hx.1 hy.1
  · rw [List.map_append, List.length_append]; exact dataLen_append env _ _ _ _ hx.2 hy.2

theorem Acc.nil (env : Env) : Acc env [] [] := ⟨rfl, rfl⟩

theorem readBuf_some (bs : List Byte) : readBuf (bs.map some) = .ok bs := by
  induction bs with
  | nil => rfl
  | cons b bs ih => simp [readBuf, ih, Res.bind]

/-- The count of a well-formed multiple. -/
def mcount (m : Option Mul) : Nat := match m with | some (.known n) => n.toNat | _ => 1

theorem getMul_ok (m : Option Mul) (h : m = none ∨ ∃ n : Int, 0 < n ∧ m = some (.known n)) :
    getMul (finalizeMul m) = .ok (mcount m) ∧ mcount m ≠ 0 := by
  rcases h with h | ⟨n, hn, h⟩
  · subst h; exact ⟨rfl, by decide⟩
  · subst h
    have : finalizeMul (some (.known n)) = some (.known n) := by
      unfold finalizeMul
      split
      · rename_i h; simp at h; omega
      · rfl
    rw [this]
    refine ⟨?_, by simp only [mcount]; omega⟩
    unfold getMul mcount
    simp only
    rw [if_neg (by omega)]

theorem Acc.single {env : Env} (o : OutDv) (b : List Byte) (m : Option Mul) (hm : o.mult = m)
    (hk : m = none ∨ ∃ n : Int, 0 < n ∧ m = some (.known n))
    (hb : o.finalize.bytes env = .ok b) (hl : o.finalize.len env = .ok b.length) :
    Acc env [o] (List.replicate (mcount m) b).flatten := by
  obtain ⟨h1, h2⟩ := getMul_ok m hk
  have hfm : o.finalize.mult = finalizeMul m := by cases o <;> simp only [OutDv.finalize, OutDv.mult] at hm ⊢ <;> rw [hm]
  refine ⟨?_, ?_⟩
  · simp only [List.map_cons, List.map_nil, dataBytes, hfm, h1, if_neg h2, hb, Res.bind, List.append_nil]
  · simp only [List.map_cons, List.map_nil, dataLen, hfm, h1, hl, Res.bind, Nat.add_zero]
    rw [flatten_replicate_length, Nat.mul_comm]

theorem Acc.raw {env : Env} (b : List Byte) (m : Option Mul)
    (hk : m = none ∨ ∃ n : Int, 0 < n ∧ m = some (.known n)) :
    Acc env [.raw (b.map some) m] (List.replicate (mcount m) b).flatten :=
  Acc.single _ b m rfl hk (by simp [OutDv.finalize, OutDv.bytes, readBuf_some]) (by simp [OutDv.finalize, OutDv.len])

theorem Acc.seal {env : Env} (b : List Byte) (m : Option Mul)
    (hk : m = none ∨ ∃ n : Int, 0 < n ∧ m = some (.known n)) :
    Acc env [sealSlot (.raw b.length m) b] (List.replicate (mcount m) b).flatten := by
  have : sealSlot (.raw b.length m) b = .raw (b.map some) m := by simp [sealSlot]
  rw [this]; exact Acc.raw b m hk

/-- While bytes are pending, the first slot is a plain buffer with room for them. -/
theorem pass1_head (arch : Bool) (size : Nat) (az : Bool) (ds : List Dv) (len : Nat) (h : 0 < len) (sl : List Slot)
    (hp : pass1 arch size az ds len = .ok sl) : ∃ c r, sl = .raw c none :: r ∧ len ≤ c := by
  induction ds generalizing len sl with
  | nil =>
    simp only [pass1, flush, h, if_true, gt_iff_lt, Res.ok.injEq] at hp
    exact ⟨len, [], hp.symm, Nat.le_refl _⟩
  | cons d ds ih =>
    unfold pass1 at hp
    cases hi : itemLen arch size d with
    | ok n =>
      rw [hi] at hp
      simp only [Res.bind] at hp
      by_cases hf : d.flushes = true
      · have e1 : (if d.flushes && decide (len > 0) then 0 else len) = 0 := by simp [hf, h]
        have e2 : (if d.flushes then flush len none [] else []) = [Slot.raw len none] := by simp [hf, flush, h]
        rw [e1, e2] at hp
        split at hp
        · cases hr : pass1 arch size az ds (if az then 1 else 0) with
          | ok r => rw [hr] at hp; simp only [Res.ok.injEq] at hp; exact ⟨len, _, by rw [← hp]; rfl, Nat.le_refl _⟩
          | err m => rw [hr] at hp; cases hp
          | fault => rw [hr] at hp; cases hp
          | ub => rw [hr] at hp; cases hp
        · split at hp
          · cases hr : pass1 arch size az ds (if az then 1 else 0) with
            | ok r => rw [hr] at hp; simp only [Res.ok.injEq] at hp; exact ⟨len, _, by rw [← hp]; rfl, Nat.le_refl _⟩
            | err m => rw [hr] at hp; cases hp
            | fault => rw [hr] at hp; cases hp
            | ub => rw [hr] at hp; cases hp
          · cases hr : pass1 arch size az ds (if az then 0 + n + 1 else 0 + n) with
            | ok r => rw [hr] at hp; simp only [Res.ok.injEq] at hp; exact ⟨len, _, by rw [← hp]; rfl, Nat.le_refl _⟩
            | err m => rw [hr] at hp; cases hp
            | fault => rw [hr] at hp; cases hp
            | ub => rw [hr] at hp; cases hp
      · have hf' : d.flushes = false := by simpa using hf
        simp only [hf', Bool.false_and, Bool.false_eq_true, if_false, List.nil_append] at hp
        split at hp
        · cases hr : pass1 arch size az ds (if az then 1 else 0) with
          | ok r =>
            rw [hr] at hp; simp only [Res.ok.injEq] at hp
            exact ⟨len, _, by rw [← hp]; simp [flush, h]; rfl, Nat.le_refl _⟩
          | err m => rw [hr] at hp; cases hp
          | fault => rw [hr] at hp; cases hp
          | ub => rw [hr] at hp; cases hp
        · cases hr : pass1 arch size az ds (if az then len + n + 1 else len + n) with
          | ok r =>
            rw [hr] at hp; simp only [Res.ok.injEq] at hp
            obtain ⟨c, r', h1, h2⟩ := ih _ (by split <;> omega) r hr
            exact ⟨c, r', by rw [← hp, h1], by split at h2 <;> omega⟩
          | err m => rw [hr] at hp; cases hp
          | fault => rw [hr] at hp; cases hp
          | ub => rw [hr] at hp; cases hp
    | err m => rw [hi] at hp; cases hp
    | fault => rw [hi] at hp; cases hp
    | ub => rw [hi] at hp; cases hp


/-- There is room for `n` more bytes. -/
def Room (p : P2) (n : Nat) : Prop :=
  (∃ c m r, p.slots = .raw c m :: r ∧ p.buf.length + n ≤ c) ∨ (n = 0 ∧ p.slots ≠ [] ∧ p.buf = [])

theorem P2.write_ok (p : P2) (bs : List Byte) (h : Room p bs.length) :
    p.write bs = .ok { p with buf := p.buf ++ bs } := by
  rcases h with ⟨c, m, r, h1, h2⟩ | ⟨h1, h2, h3⟩
  · unfold P2.write; rw [h1]; simp only; rw [if_pos h2]
  · have hb : bs = [] := List.length_eq_zero_iff.1 h1
    subst hb
    unfold P2.write
    match hs : p.slots with
    | [] => exact absurd hs h2
    | .expr _ :: _ => simp [← hs]
    | .raw c m :: r => simp [h3, ← hs]

/-- An item whose bytes are known when the directive is created. -/
structure Inline (env : Env) (arch : Bool) (size : Nat) (d : Dv) (w : List Byte) : Prop where
  sep : separate arch size d = false
  len : itemLen arch size d = .ok w.length
  item : ∀ p : P2, Room p w.length → p.item arch size d = .ok { p with buf := p.buf ++ w }
  enc : Encodes env arch size w d.item
  ne : d.flushes = true → w ≠ []

/-- An item that gets a slot of its own and is emitted by the output functions. -/
structure Apart (env : Env) (arch : Bool) (size : Nat) (d : Dv) (b : List Byte) : Prop where
  sep : separate arch size d = true
  len : itemLen arch size d = .ok 0
  item : ∃ k x, (∀ p : P2, p.item arch size d = (p.nextIf true).bind fun p => p.value k x size) ∧
    Acc env [.expr k x size d.mult] (List.replicate (mcount d.mult) b).flatten
  enc : Encodes env arch size b d.item

theorem pad_spec (size : Nat) (bs : List Byte) (h : 1 ≤ size) :
    ∃ k, k < size ∧ pad size bs = List.replicate k 0 ∧ (bs.length + k) % size = 0 ∧
      (bs.length + size - 1) / size * size = bs.length + k := by
  have hm := Nat.mod_lt bs.length (show 0 < size by omega)
  have hd := Nat.div_add_mod bs.length size
  unfold pad
  by_cases h0 : bs.length % size > 0
  · refine ⟨size - bs.length % size, by omega, by simp [h0], ?_, ?_⟩
    · have e : bs.length + (size - bs.length % size) = size * (bs.length / size + 1) := by
        rw [Nat.mul_add]; omega
      rw [e]; exact Nat.mul_mod_right _ _
    · have e : (bs.length + size - 1) / size = bs.length / size + 1 := by
        apply Nat.div_eq_of_lt_le
        · rw [Nat.add_mul, Nat.mul_comm]; omega
        · rw [show bs.length / size + 1 + 1 = bs.length / size + 2 from rfl, Nat.add_mul, Nat.mul_comm]; omega
      rw [e, Nat.add_mul, Nat.mul_comm]; omega
  · refine ⟨0, by omega, by simp; omega, by simp; omega, ?_⟩
    have e : (bs.length + size - 1) / size = bs.length / size := by
      apply Nat.div_eq_of_lt_le
      · rw [Nat.mul_comm]; omega
      · rw [Nat.add_mul, Nat.mul_comm]; omega
    rw [e, Nat.mul_comm]; omega

theorem classify (env : Env) (arch : Bool) (size : Nat) (d : Dv) (h : DvOk env arch size d) :
    (∃ w, Inline env arch size d w) ∨ (∃ b, Apart env arch size d b) := by
  obtain ⟨item, mult⟩ := d
  obtain ⟨hm, hi⟩ := h
  simp only at hm hi
  match item, hi with
  | .empty, hi =>
    left
    exact ⟨[], rfl, rfl, fun p _ => by simp [P2.item], rfl, by simp [Dv.flushes]⟩
  | .expr .value (some i) x, hi =>
    by_cases ha : arch = true ∨ size = 1
    · left
      simp only [ha, if_true] at hi
      obtain ⟨bs, h1, h2, h3⟩ := sized_spec i size hi.1 hi.2.2
      have hb : (arch || size == 1) = true := by simpa using ha
      refine ⟨bs, by simp [separate, inlined, hb], by simp [itemLen, hb, h2], ?_, ?_, ?_⟩
      · intro p hp
        simp only [P2.item, hb, if_true, h1, Res.bind]
        exact p.write_ok bs hp
      · simp only [Encodes, ha, if_true]; exact ⟨h2, h3⟩
      · intro _ e; subst e; simp at h2; omega
    · right
      simp only [ha, if_false] at hi
      obtain ⟨bs, h1, h2⟩ := hi
      have hb : (arch || size == 1) = false := by
        simp only [not_or] at ha; simp [ha.1, ha.2]
      refine ⟨bs, by simp [separate, inlined, hb], by simp [itemLen, hb], ⟨.value, x, ?_, ?_⟩, ?_⟩
      · intro p; simp only [P2.item, hb, Bool.false_eq_true, if_false]
      · exact Acc.single _ bs mult rfl hm (by simp [OutDv.finalize, OutDv.bytes, h1]) (by simp [OutDv.finalize, OutDv.len, h2])
      · simp only [Encodes, ha, if_false]; exact h1
  | .expr .value none x, hi =>
    right
    obtain ⟨bs, h1, h2⟩ := hi
    refine ⟨bs, by simp [separate, inlined], by simp [itemLen], ⟨.value, x, ?_, ?_⟩, ?_⟩
    · intro p; simp only [P2.item]
    · exact Acc.single _ bs mult rfl hm (by simp [OutDv.finalize, OutDv.bytes, h1]) (by simp [OutDv.finalize, OutDv.len, h2])
    · exact h1
  | .expr .uleb (some i) x, hi =>
    left
    obtain ⟨bs, h1, h2, h3, h4⟩ := lebBytes_spec i false hi
    refine ⟨bs, by simp [separate, inlined], by simp [itemLen, h2], ?_, h3, ?_⟩
    · intro p hp
      simp only [P2.item, h1, Res.bind]
      exact p.write_ok bs hp
    · intro _ e; subst e; simp at h4
  | .expr .sleb (some i) x, hi =>
    left
    obtain ⟨bs, h1, h2, h3, h4⟩ := lebBytes_spec i true hi
    refine ⟨bs, by simp [separate, inlined], by simp [itemLen, h2], ?_, h3, ?_⟩
    · intro p hp
      simp only [P2.item, h1, Res.bind]
      exact p.write_ok bs hp
    · intro _ e; subst e; simp at h4
  | .expr .uleb none x, hi =>
    right
    obtain ⟨hs, i, hc, hl⟩ := hi
    obtain ⟨bs, h1, h2, h3, h4⟩ := lebBytes_spec i false hl
    refine ⟨bs, by simp [separate, inlined], by simp [itemLen], ⟨.uleb, x, ?_, ?_⟩, ⟨i, hc, h3⟩⟩
    · intro p; simp only [P2.item]
    · refine Acc.single _ bs mult rfl hm ?_ ?_
      · simp [OutDv.finalize, OutDv.bytes, hc, h1, Res.bind, hs]
      · simp [OutDv.finalize, OutDv.len, hc, h2]
  | .expr .sleb none x, hi =>
    right
    obtain ⟨hs, i, hc, hl⟩ := hi
    obtain ⟨bs, h1, h2, h3, h4⟩ := lebBytes_spec i true hl
    refine ⟨bs, by simp [separate, inlined], by simp [itemLen], ⟨.sleb, x, ?_, ?_⟩, ⟨i, hc, h3⟩⟩
    · intro p; simp only [P2.item]
    · refine Acc.single _ bs mult rfl hm ?_ ?_
      · simp [OutDv.finalize, OutDv.bytes, hc, h1, Res.bind, hs]
      · simp [OutDv.finalize, OutDv.len, hc, h2]
  | .raw s, hi =>
    left
    obtain ⟨k, hk, hp, hz, hl⟩ := pad_spec size s hi.1
    refine ⟨s ++ pad size s, by simp [separate], ?_, ?_, ⟨k, hk, by rw [hp], by rw [hp]; simpa using hz⟩, ?_⟩
    · simp only [itemLen]
      rw [if_neg (by omega), hl, hp]; simp
    · intro p hr
      simp only [P2.item]
      rw [if_neg (by omega), p.write_ok s ?_]
      · simp only [Res.bind]
        rw [P2.write_ok _ (pad size s) ?_]
        · simp
        · rcases hr with ⟨c, m, r, h1, h2⟩ | ⟨h1, h2, h3⟩
          · left; exact ⟨c, m, r, h1, by simp only [List.length_append] at h2 ⊢; omega⟩
          · right
            have hse : s ++ pad size s = [] := List.length_eq_zero_iff.1 h1
            obtain ⟨e1, e2⟩ := List.append_eq_nil_iff.1 hse
            exact ⟨by rw [e2]; rfl, h2, by simp [h3, e1]⟩
      · rcases hr with ⟨c, m, r, h1, h2⟩ | ⟨h1, h2, h3⟩
        · left; exact ⟨c, m, r, h1, by simp only [List.length_append] at h2; omega⟩
        · right
          exact ⟨by simp only [List.length_append] at h1; omega, h2, h3⟩
    · intro hf e
      obtain ⟨e1, _⟩ := List.append_eq_nil_iff.1 e
      have := hi.2 e1
      simp [Dv.flushes, this] at hf
  | .reserve, hi =>
    left
    refine ⟨List.replicate size 0, by simp [separate], by simp [itemLen], ?_, rfl, ?_⟩
    · intro p hp; simp only [P2.item]; exact p.write_ok _ hp
    · intro _ e; have := congrArg List.length e; simp at this; omega

theorem count_mcount (d : Dv) (h : d.mult = none ∨ ∃ n : Int, 0 < n ∧ d.mult = some (.known n)) :
    d.count.toNat = mcount d.mult := by
  rcases h with h | ⟨n, _, h⟩ <;> simp [Dv.count, mcount, h]

theorem mul_none_ok : (none : Option Mul) = none ∨ ∃ n : Int, 0 < n ∧ (none : Option Mul) = some (.known n) := .inl rfl

/-- Adding the appended NUL, when there is room for it. -/
def azBytes (az : Bool) : List Byte := if az then [0] else []

theorem write_az (p : P2) (az : Bool) (h : az = true → Room p 1) :
    (if az then p.write [0] else .ok p) = .ok { p with buf := p.buf ++ azBytes az } := by
  cases az with
  | true => simp only [if_true, azBytes]; exact p.write_ok [0] (h rfl)
  | false => simp [azBytes]

theorem pass2_spec (env : Env) (arch : Bool) (size : Nat) (az : Bool) (ds : List Dv)
    (hok : ∀ d ∈ ds, DvOk env arch size d) (done : List OutDv) (a : List Byte) (ha : Acc env done a) (buf : List Byte)
    (len : Nat) (hlen : buf.length = len) :
    ∃ sl p' L, pass1 arch size az ds len = .ok sl ∧ pass2 arch size az ds ⟨done, sl, buf⟩ = .ok p' ∧
      Acc env p'.finish (a ++ buf ++ L) ∧ Layout env arch size az ds L := by
  induction ds generalizing done a buf len with
  | nil =>
    refine ⟨flush len none [], _, [], rfl, rfl, ?_, .nil⟩
    unfold P2.finish flush
    split
    · rename_i h
      split at h
      · cases h
      · have : buf = [] := List.length_eq_zero_iff.1 (by omega)
        subst this; simpa using ha
    · rename_i s r h
      split at h
      · simp only [List.cons.injEq] at h
        obtain ⟨h1, h2⟩ := h
        subst h1 h2
        have := (Acc.seal (env := env) buf none mul_none_ok)
        rw [hlen] at this
        simp only [mcount, List.replicate_one, List.flatten_cons, List.flatten_nil, List.append_nil] at this ⊢
        simpa using ha.append this
      · cases h
  | cons d ds ih =>
    have hd := hok d (by simp)
    have hds : ∀ d ∈ ds, DvOk env arch size d := fun x hx => hok x (by simp [hx])
    have hcount := count_mcount d hd.1
    have hazl : (azBytes az).length = if az then 1 else 0 := by cases az <;> rfl
    rcases classify env arch size d hd with ⟨w, hI⟩ | ⟨b, hA⟩
    · by_cases hf : d.flushes = true
      · -- flush, own buffer, flush
        have hw := hI.ne hf
        have hwl : 0 < w.length := List.length_pos_iff.2 hw
        -- after the item
        obtain ⟨sl, p', L, h1, h2, h3, h4⟩ := ih hds
          (done ++ (if 0 < len then [sealSlot (.raw len none) buf] else []) ++ [sealSlot (.raw w.length d.mult) w])
          (a ++ buf ++ (List.replicate (mcount d.mult) w).flatten)
          (by
            refine Acc.append ?_ (Acc.seal w d.mult hd.1)
            split
            · have := (Acc.seal (env := env) buf none mul_none_ok)
              rw [hlen] at this
              simp only [mcount, List.replicate_one, List.flatten_cons, List.flatten_nil, List.append_nil] at this
              exact ha.append this
            · have : buf = [] := List.length_eq_zero_iff.1 (by omega)
              subst this; simpa using ha)
          (azBytes az) (if az then 1 else 0) hazl
        refine ⟨flush len none [] ++ Slot.raw w.length d.mult :: sl, p',
          (List.replicate (mcount d.mult) w).flatten ++ azBytes az ++ L, ?_, ?_, ?_, ?_⟩
        · unfold pass1
          rw [hI.len]
          simp only [Res.bind, hI.sep, Bool.false_eq_true, if_false, hf, if_true, Bool.true_and]
          have e1 : (if decide (len > 0) = true then 0 else len) = 0 := by
            by_cases h : len > 0 <;> simp [h]
            omega
          rw [e1, Nat.zero_add, if_pos (by simpa using hwl), h1]
        · unfold pass2
          rw [if_neg (by unfold flush; split <;> simp)]
          have hstep : P2.step arch size az ⟨done, flush len none [] ++ Slot.raw w.length d.mult :: sl, buf⟩ d =
              .ok ⟨done ++ (if 0 < len then [sealSlot (.raw len none) buf] else []) ++ [sealSlot (.raw w.length d.mult) w],
                sl, azBytes az⟩ := by
            unfold P2.step
            have hn1 : P2.nextIf ⟨done, flush len none [] ++ Slot.raw w.length d.mult :: sl, buf⟩ d.flushes =
                .ok ⟨done ++ (if 0 < len then [sealSlot (.raw len none) buf] else []), Slot.raw w.length d.mult :: sl, []⟩ := by
              unfold P2.nextIf
              rw [hf]
              by_cases h0 : len > 0
              · have : buf.length > 0 := by omega
                simp [this, P2.next, flush, h0]
              · have hb : buf = [] := List.length_eq_zero_iff.1 (by omega)
                subst hb
                simp [flush, h0]
            rw [hn1]
            simp only [Res.bind]
            rw [hI.item _ (.inl ⟨w.length, d.mult, sl, rfl, by simp⟩)]
            simp only [Res.bind, List.nil_append]
            have hn2 : ∀ q, P2.nextIf ⟨q, Slot.raw w.length d.mult :: sl, w⟩ d.flushes =
                .ok ⟨q ++ [sealSlot (.raw w.length d.mult) w], sl, []⟩ := by
              intro q; unfold P2.nextIf; rw [hf]; simp [hwl, P2.next]
            rw [hn2]
            simp only [Res.bind]
            rw [write_az]
            · simp
            · intro haz
              subst haz
              obtain ⟨c, r, e, hc⟩ := pass1_head arch size true ds 1 (by omega) sl (by simpa using h1)
              exact .inl ⟨c, none, r, e, by simpa using hc⟩
          rw [hstep]
          exact h2
        · simpa [List.append_assoc] using h3
        · rw [← hcount]; exact .cons d ds w L hI.enc h4
      · -- no multiple: the bytes join the pending ones
        have hf' : d.flushes = false := by simpa using hf
        have hmc : (List.replicate (mcount d.mult) w).flatten = w := by
          have : d.mult = none ∨ w = [] := by
            rcases hd.1 with h | ⟨n, hn, h⟩
            · exact .inl h
            · right
              simp only [Dv.flushes, h, Option.isSome_some, Bool.true_and, decide_eq_false_iff_not] at hf'
              have he : d.item = .empty := by simpa using hf'
              have := hI.enc; rw [he] at this; exact this
          rcases this with h | h
          · simp [mcount, h]
          · subst h; simp
        obtain ⟨sl, p', L, h1, h2, h3, h4⟩ := ih hds done a ha (buf ++ w ++ azBytes az)
          (if az then len + w.length + 1 else len + w.length)
          (by simp only [List.length_append, hazl]; split <;> omega)
        refine ⟨sl, p', (List.replicate (mcount d.mult) w).flatten ++ azBytes az ++ L, ?_, ?_, ?_, ?_⟩
        · unfold pass1
          rw [hI.len]
          simp only [Res.bind, hI.sep, Bool.false_eq_true, if_false, hf', Bool.false_and, List.nil_append]
          rw [h1]
        · unfold pass2
          split
          · -- nothing left to fill: nothing was to be written
            rename_i hs
            simp only at hs
            subst hs
            have h0 : len + w.length = 0 ∧ az = false := by
              rcases Nat.eq_zero_or_pos (if az then len + w.length + 1 else len + w.length) with h | h
              · split at h
                · omega
                · rename_i haz; exact ⟨h, by simpa using haz⟩
              · obtain ⟨c, r, e, _⟩ := pass1_head _ _ _ _ _ h _ h1
                cases e
            obtain ⟨h00, haz⟩ := h0
            have hb : buf = [] := List.length_eq_zero_iff.1 (by omega)
            have hw0 : w = [] := List.length_eq_zero_iff.1 (by omega)
            subst hb hw0 haz
            simp only [azBytes, Bool.false_eq_true, if_false, List.append_nil] at h2
            cases ds with
            | nil => exact h2
            | cons x xs => unfold pass2 at h2; simpa using h2
          · rename_i hs
            have hstep : P2.step arch size az ⟨done, sl, buf⟩ d = .ok ⟨done, sl, buf ++ w ++ azBytes az⟩ := by
              have hroom : Room ⟨done, sl, buf⟩ (w.length + (azBytes az).length) := by
                rcases Nat.eq_zero_or_pos (if az then len + w.length + 1 else len + w.length) with h | h
                · right
                  have : az = false := by cases az with
                    | true => simp at h
                    | false => rfl
                  subst this
                  simp only [Bool.false_eq_true, if_false] at h
                  exact ⟨by show w.length + 0 = 0; omega, hs, List.length_eq_zero_iff.1 (show buf.length = 0 by omega)⟩
                · obtain ⟨c, r, e, hc⟩ := pass1_head _ _ _ _ _ h _ h1
                  left
                  refine ⟨c, none, r, e, ?_⟩
                  simp only [hazl, hlen]
                  split at hc <;> simp_all <;> omega
              unfold P2.step
              simp only [P2.nextIf, hf', Bool.false_and, Bool.false_eq_true, if_false, Res.bind]
              rw [hI.item _ ?_]
              · simp only [Res.bind]
                rw [write_az]
                intro haz
                subst haz
                rcases hroom with ⟨c, m, r, e, hc⟩ | ⟨h1, _, _⟩
                · left; exact ⟨c, m, r, e, by simp [azBytes] at hc ⊢; omega⟩
                · simp [azBytes] at h1
              · rcases hroom with ⟨c, m, r, e, hc⟩ | ⟨h1, h2, h3⟩
                · left; exact ⟨c, m, r, e, by omega⟩
                · right; exact ⟨by omega, h2, h3⟩
            rw [hstep]
            exact h2
        · rw [hmc]
          simpa [List.append_assoc] using h3
        · rw [← hcount]; exact .cons d ds w L hI.enc h4
    · -- a value of its own
      obtain ⟨k, x, hitem, hacc⟩ := hA.item
      have haccb : Acc env (done ++ (if 0 < len then [sealSlot (.raw len none) buf] else [])) (a ++ buf) := by
        split
        · have := (Acc.seal (env := env) buf none mul_none_ok)
          rw [hlen] at this
          simp only [mcount, List.replicate_one, List.flatten_cons, List.flatten_nil, List.append_nil] at this
          exact ha.append this
        · have : buf = [] := List.length_eq_zero_iff.1 (by omega)
          subst this; simpa using ha
      obtain ⟨sl, p', L, h1, h2, h3, h4⟩ := ih hds
        (done ++ (if 0 < len then [sealSlot (.raw len none) buf] else []) ++ [.expr k x size d.mult])
        (a ++ buf ++ (List.replicate (mcount d.mult) b).flatten)
        (haccb.append hacc) (azBytes az) (if az then 1 else 0) hazl
      refine ⟨flush len none [] ++ Slot.expr d.mult :: sl, p',
        (List.replicate (mcount d.mult) b).flatten ++ azBytes az ++ L, ?_, ?_, ?_, ?_⟩
      · unfold pass1
        rw [hA.len]
        simp only [Res.bind, hA.sep, if_true, h1]
        by_cases hf : d.flushes = true
        · by_cases h0 : len > 0 <;> simp [hf, h0, flush]
        · have hf' : d.flushes = false := by simpa using hf
          simp [hf']
      · unfold pass2
        rw [if_neg (by unfold flush; split <;> simp)]
        have hnext : ∀ c, P2.nextIf ⟨done, flush len none [] ++ Slot.expr d.mult :: sl, buf⟩ c =
            .ok (if c then ⟨done ++ (if 0 < len then [sealSlot (.raw len none) buf] else []), Slot.expr d.mult :: sl, []⟩
              else ⟨done, flush len none [] ++ Slot.expr d.mult :: sl, buf⟩) := by
          intro c
          unfold P2.nextIf
          cases c with
          | false => simp
          | true =>
            by_cases h0 : len > 0
            · have : buf.length > 0 := by omega
              simp [this, P2.next, flush, h0]
            · have hb : buf = [] := List.length_eq_zero_iff.1 (by omega)
              subst hb
              simp [flush, h0]
        have hnext2 : P2.nextIf ⟨done ++ (if 0 < len then [sealSlot (.raw len none) buf] else []), Slot.expr d.mult :: sl, []⟩ true =
            .ok ⟨done ++ (if 0 < len then [sealSlot (.raw len none) buf] else []), Slot.expr d.mult :: sl, []⟩ := by
          simp [P2.nextIf]
        have hstep : P2.step arch size az ⟨done, flush len none [] ++ Slot.expr d.mult :: sl, buf⟩ d =
            .ok ⟨done ++ (if 0 < len then [sealSlot (.raw len none) buf] else []) ++ [.expr k x size d.mult],
              sl, azBytes az⟩ := by
          unfold P2.step
          rw [hnext]
          simp only [Res.bind, hitem]
          have : P2.nextIf (if d.flushes then ⟨done ++ (if 0 < len then [sealSlot (.raw len none) buf] else []), Slot.expr d.mult :: sl, []⟩
              else ⟨done, flush len none [] ++ Slot.expr d.mult :: sl, buf⟩) true =
              .ok ⟨done ++ (if 0 < len then [sealSlot (.raw len none) buf] else []), Slot.expr d.mult :: sl, []⟩ := by
            split
            · exact hnext2
            · rw [hnext]; simp
          rw [this]
          simp only [Res.bind, P2.value]
          have hn3 : ∀ q, P2.nextIf ⟨q, sl, []⟩ d.flushes = .ok ⟨q, sl, []⟩ := by
            intro q; simp [P2.nextIf]
          rw [hn3]
          simp only [Res.bind]
          rw [write_az]
          · simp
          · intro haz
            subst haz
            obtain ⟨c, r, e, hc⟩ := pass1_head arch size true ds 1 (by omega) sl (by simpa using h1)
            exact .inl ⟨c, none, r, e, by simpa using hc⟩
        rw [hstep]
        exact h2
      · simpa [List.append_assoc] using h3
      · rw [← hcount]; exact .cons d ds b L hA.enc h4

end Verif.Bytecode
