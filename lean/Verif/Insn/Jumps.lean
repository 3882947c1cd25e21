/-
Lengths and targets of jumps.
-/
import Verif.Insn.Length
import Verif.Insn.Writes

set_option linter.unusedSimpArgs false

namespace Verif.Insn

open Verif.Intnum
open Verif.Expr
open Verif.Value
open Verif.Ea

/-- What holds of a jump once its length is known. -/
structure CountedJmp (j : Jmp) (len : Nat) : Prop where
  sel : j.sel ≠ .none
  short : j.shortop.len ≤ 3
  near : j.nearop.len ≤ 3
  some : (form j).1.len ≠ 0
  len : len = commonLen j.common + (form j).1.len + (form j).2

theorem nearBytes_form {j : Jmp} (h : j.sel = .near ∨ j.sel = .nearForced) : form j = (j.nearop, nearBytes j.common) := by
  unfold form nearBytes Common.opsize
  rcases h with h | h <;> rw [h]

theorem short_form {j : Jmp} (h : j.sel = .short ∨ j.sel = .shortForced) : form j = (j.shortop, 1) := by
  unfold form
  rcases h with h | h <;> rw [h]

theorem jmpLen_counted {c : Ctx} {bc : At} {j : Jmp} {r : Count Jmp} (s : StartJmp j) (h : jmpLen c bc j = .ok r) :
    CountedJmp r.insn r.len ∧ r.insn.target = j.target ∧
      (∀ s ∈ r.spans, s.id = 1 ∧ (r.insn.sel = .short ∨ r.insn.sel = .shortForced)) := by
  unfold jmpLen at h
  extract_lets pre near short at h
  split at h
  · rename_i h1
    split at h
    · cases h
    · rename_i h2
      cases h
      by_cases h0 : j.shortop.len = 0
      · simp only [if_pos h0]
        have hf := nearBytes_form (j := { j with sel := .near }) (Or.inl rfl)
        refine ⟨⟨by simp, s.short, s.near, by rw [hf]; exact h2, by rw [hf]⟩, trivial, by simp⟩
      · simp only [if_neg h0]
        have hs : j.sel = .nearForced := by rcases h1 with h1 | h1; exacts [h1, absurd h1 h0]
        have hf := nearBytes_form (j := j) (Or.inr hs)
        refine ⟨⟨by rw [hs]; simp, s.short, s.near, by rw [hf]; exact h2, by rw [hf]⟩, trivial, by simp⟩
  · rename_i h1
    push Not at h1
    obtain ⟨h1, h2⟩ := h1
    have key : ∀ k : Jmp, k = (if j.sel = .none then { j with sel := .short } else j) →
        CountedJmp k short ∧ k.target = j.target ∧ (k.sel = .short ∨ k.sel = .shortForced) := by
      intro k hk
      by_cases hs : j.sel = .none
      · rw [if_pos hs] at hk
        subst hk
        have hf := short_form (j := { j with sel := .short }) (Or.inl rfl)
        exact ⟨⟨by simp, s.short, s.near, by rw [hf]; exact h2, by rw [hf]⟩, rfl, Or.inl rfl⟩
      · rw [if_neg hs] at hk
        subst hk
        have hs' : k.sel = .shortForced := by
          rcases s.sel with q | q | q
          exacts [absurd q hs, q, absurd q h1]
        have hf := short_form (j := k) (Or.inr hs')
        exact ⟨⟨hs, s.short, s.near, by rw [hf]; exact h2, by rw [hf]⟩, rfl, Or.inr hs'⟩
    split at h
    · split at h
      · cases h
        obtain ⟨a, b, _⟩ := key _ rfl
        exact ⟨a, b, by simp⟩
      · rename_i h3
        push Not at h3
        cases h
        have hf := nearBytes_form (j := { j with sel := .near }) (Or.inl rfl)
        exact ⟨⟨by simp, s.short, s.near, by rw [hf]; exact h3.2, by rw [hf]⟩, rfl, by simp⟩
    · cases h
      obtain ⟨a, b, d⟩ := key _ rfl
      refine ⟨a, b, ?_⟩
      intro t ht
      simp only [List.mem_singleton] at ht
      subst ht
      exact ⟨rfl, d⟩

theorem jmpExpand_counted {j j' : Jmp} {len len' : Nat} {span : Nat} (hc : CountedJmp j len)
    (hs : j.sel = .short ∨ j.sel = .shortForced) (h : jmpExpand j len span = .ok (j', len')) :
    CountedJmp j' len' ∧ j'.target = j.target := by
  unfold jmpExpand at h
  split at h
  · cases h
  · split at h
    · cases h
    · rename_i h1
      push Not at h1
      split at h
      · cases h
      · simp only [Except.ok.injEq, Prod.mk.injEq] at h
        obtain ⟨e1, e2⟩ := h
        subst e1
        have hf := nearBytes_form (j := { j with sel := .near }) (Or.inl rfl)
        have hl := hc.len
        rw [short_form hs] at hl
        refine ⟨⟨by simp, hc.short, hc.near, by rw [hf]; exact h1.2, ?_⟩, rfl⟩
        rw [hf, ← e2]
        dsimp only at hl ⊢
        omega

theorem lifeJmp_counted {c : Ctx} {bc : At} {j : Jmp} {len : Nat} {spans : List Span} (h : LifeJmp c bc j len spans) :
    CountedJmp j len ∧ ∀ s ∈ spans, s.id = 1 ∧ (j.sel = .short ∨ j.sel = .shortForced) := by
  induction h with
  | count s hr =>
    obtain ⟨a, _, b⟩ := jmpLen_counted s hr
    exact ⟨a, b⟩
  | widen s _ hs he ih => exact ⟨(jmpExpand_counted ih.1 (ih.2 s hs).2 he).1, by simp⟩

theorem jmpBytes_form {out : OutputValue} {j : Jmp} {len pos l : Nat} (h : CountedJmp j l) :
    jmpBytes out j len pos = jmpForm out j (form j).1 (form j).2 len pos := by
  have hsome := h.some
  unfold jmpBytes
  cases hs : j.sel with
  | none => exact absurd hs h.sel
  | short => rw [short_form (Or.inl hs)] at hsome ⊢; exact if_neg hsome
  | shortForced => rw [short_form (Or.inr hs)] at hsome ⊢; exact if_neg hsome
  | near => rw [nearBytes_form (Or.inl hs)] at hsome ⊢; exact if_neg hsome
  | nearForced => rw [nearBytes_form (Or.inr hs)] at hsome ⊢; exact if_neg hsome

theorem form_len {j : Jmp} {len : Nat} (h : CountedJmp j len) : (form j).1.len ≤ 3 := by
  unfold form
  split
  exacts [h.short, h.short, h.near]

theorem counted_target {j : Jmp} {len : Nat} {f : Field} (h : CountedJmp j len) : CountedJmp { j with target := f } len :=
  ⟨h.sel, h.short, h.near, h.some, h.len⟩

theorem jmpBytes_len {out : OutputValue} (contract : Contract out) {j : Jmp} {len pos : Nat} {e : Emitted Jmp} (h : CountedJmp j len)
    (he : (jmpBytes out j len pos).out = .ok e) : e.bytes.length = len ∧ CountedJmp e.after len := by
  rw [jmpBytes_form h] at he
  obtain ⟨o, ho, ol⟩ := opcodeBytes_len (form_len h)
  unfold jmpForm at he
  obtain ⟨o', ho', he, _⟩ := Run.bind_out he
  have : Except.ok (ε := Stop) o' = .ok o := by rw [← ho, ← ho']; rfl
  cases this
  obtain ⟨w, hw, he, _⟩ := Run.bind_out he
  cases he
  obtain ⟨c1, _⟩ := contract _ _ _ _ hw
  refine ⟨?_, counted_target h⟩
  have hc := commonBytes_len j.common 0
  simp only [List.length_append, c1, ol, hc, h.len]
  simp

theorem form_pos (j : Jmp) : 1 ≤ (form j).2 ∧ (form j).2 ≤ 4 := by
  unfold form
  split
  · exact (by decide : 1 ≤ 1 ∧ 1 ≤ 4)
  · exact (by decide : 1 ≤ 1 ∧ 1 ≤ 4)
  · dsimp only
    generalize (if j.common.opersize = 0 then j.common.mode else j.common.opersize) = z
    split <;> decide

theorem jmpBytes_no_internal {out : OutputValue} (safe : NoInternal out) {j : Jmp} {len pos : Nat} (h : CountedJmp j len) :
    (jmpBytes out j len pos).out ≠ .error .internal := by
  rw [jmpBytes_form h]
  obtain ⟨o, ho, ol⟩ := opcodeBytes_len (form_len h)
  intro hi
  unfold jmpForm at hi
  rcases bind_internal hi with h' | ⟨o', _, hi⟩
  · rw [show (Run.of (opcodeBytes (form j).1)).out = opcodeBytes (form j).1 from rfl, ho] at h'
    cases h'
  · rcases bind_internal hi with h' | ⟨w, _, hi⟩
    · exact safe _ _ _ (by have := form_pos j; omega) h'
    · cases hi

/-! ### Where they go -/

/-- The displacement a jump is written with. -/
theorem jmpBytes_disp {out : OutputValue} {ρ : Env} {w : Place} (writes : Writes out ρ w) {j : Jmp} {len pos : Nat} {e : Emitted Jmp}
    (hc : CountedJmp j len) (fine : Fine ρ j.target.v) (hl : len < 2 ^ 32)
    (he : (jmpBytes out j len pos).out = .ok e) (sound : ∀ k ∈ (jmpBytes out j len pos).log, k.Sound) :
    ∃ o d, opcodeBytes (form j).1 = .ok o ∧ e.bytes = commonBytes j.common 0 ++ o ++ d ∧ d.length = (form j).2 ∧
      (leVal d : Int) = (meaning ρ w j.target.v - BitVec.ofNat 256 len).toInt % 2 ^ (8 * (form j).2) ∧
      (e.warns = [] ↔ j.target.v.noWarn = true ∨ Takes true (form j).2 (meaning ρ w j.target.v - BitVec.ofNat 256 len).toInt) ∧
      (∃ f, e.after = { j with target := f } ∧ Fine ρ f.v ∧ meaning ρ w f.v = meaning ρ w j.target.v - BitVec.ofNat 256 len ∧
        f.v.noWarn = j.target.v.noWarn) := by
  rw [jmpBytes_form hc] at he sound
  unfold jmpForm at he sound
  obtain ⟨o, ho, he, l1⟩ := Run.bind_out he
  rw [l1] at sound
  obtain ⟨x, hx, he, l2⟩ := Run.bind_out he
  rw [l2] at sound
  cases he
  have hn : 1 ≤ (form j).2 ∧ (form j).2 ≤ 8 := by
    unfold form
    split
    · exact (by decide : 1 ≤ 1 ∧ 1 ≤ 8)
    · exact (by decide : 1 ≤ 1 ∧ 1 ≤ 8)
    · dsimp only
      generalize (if j.common.opersize = 0 then j.common.mode else j.common.opersize) = z
      split <;> decide
  obtain ⟨w1, w2, w3, w4, w5, _, _, w8⟩ := writes _ _ _ x (fromEnd_fine fine hl) (Nat.mul_comm _ _) hn.1 hn.2 hx
    (fun k hk => sound k (List.mem_append_right _ (List.mem_append_left _ hk)))
  rw [fromEnd_meaning ρ w _ hl] at w2 w3 w5
  have hnw : (fromEnd j.target.v len).noWarn = j.target.v.noWarn := by unfold fromEnd; split <;> rfl
  rw [hnw] at w3 w8
  exact ⟨o, x.bytes, ho, rfl, w1, w2, w3, x.field, rfl, w4, w5, w8⟩

theorem toInt_takes {x : Word} {n : Nat} {d : List Byte} (hd : d.length = n) (h1 : 1 ≤ n) (h : (leVal d : Int) = x.toInt % 2 ^ (8 * n)) :
    (Takes true n x.toInt → BitVec.ofInt 256 (signedLE d) = x) ∧
    (n ≤ 31 → (BitVec.ofInt 256 (signedLE d)).setWidth (8 * n) = x.setWidth (8 * n)) := by
  have hne : d ≠ [] := by intro hh; subst hh; simp at hd; omega
  constructor
  · intro ht
    unfold Takes at ht
    simp only [if_true] at ht
    rw [← hd] at ht h
    rw [signedLE_exact hne h ht.1 ht.2, BitVec.ofInt_toInt]
  · intro hn
    have hm := signedLE_mod d
    rw [hd, h, Int.emod_emod] at hm
    have e1 : (BitVec.ofInt 256 (signedLE d)).setWidth (8 * n) = BitVec.ofInt (8 * n) (signedLE d) := by
      apply BitVec.eq_of_toNat_eq
      rw [BitVec.toNat_setWidth, BitVec.toNat_ofInt, BitVec.toNat_ofInt]
      have : (2 : Nat) ^ 256 = 2 ^ (8 * n) * 2 ^ (256 - 8 * n) := by rw [← Nat.pow_add]; congr 1; omega
      rw [this]
      set_option exponentiation.threshold 1000 in
      have hp : 0 < 2 ^ (8 * n) := Nat.two_pow_pos _
      zify
      rw [Int.toNat_of_nonneg (Int.emod_nonneg _ (by positivity)), Int.toNat_of_nonneg (Int.emod_nonneg _ (by positivity))]
      exact Int.emod_emod_of_dvd _ (Dvd.intro _ rfl)
    have e2 : x.setWidth (8 * n) = BitVec.ofInt (8 * n) x.toInt := by
      apply BitVec.eq_of_toInt_eq
      rw [BitVec.toInt_ofInt, BitVec.toInt_setWidth]
      rw [BitVec.toInt_eq_toNat_bmod, Int.bmod_bmod_of_dvd]
      rw [show (2:Nat) ^ 256 = 2 ^ (8 * n) * 2 ^ (256 - 8 * n) by rw [← Nat.pow_add]; congr 1; omega]
      exact Dvd.intro _ rfl
    rw [e1, e2]
    apply BitVec.eq_of_toInt_eq
    rw [BitVec.toInt_ofInt, BitVec.toInt_ofInt]
    have := congrArg (fun z => Int.bmod z (2 ^ (8 * n))) hm
    have c : ((2 : Int) ^ (8 * n)) = ((2 ^ (8 * n) : Nat) : Int) := by push_cast; rfl
    simp only [c, Int.emod_bmod] at this
    exact this

theorem copy_zero {bs cs : List Byte} {len : Nat} (h : bs.length = len) : copy (bs ++ cs) len 0 = bs := by
  simp [copy, ← h]

theorem copy_succ {bs cs : List Byte} {len k : Nat} (h : bs.length = len) : copy (bs ++ cs) len (k + 1) = copy cs len k := by
  unfold copy
  rw [show (k + 1) * len = bs.length + k * len by rw [Nat.succ_mul, h]; omega, List.drop_append,
    Nat.add_sub_cancel_left, List.drop_eq_nil_of_le (by omega), List.nil_append]

/-- Each copy counts from its own end. -/
theorem copies_disp {out : OutputValue} {ρ : Env} {w : Place} (writes : Writes out ρ w) {len : Nat} (hl : len < 2 ^ 32)
    {c : Common} {so no : Opcode} {sel : Sel} {nw : Bool} (n : Nat) :
    ∀ (j : Jmp) (pos : Nat) (r : Emitted Jmp), CountedJmp j len → Fine ρ j.target.v → j.common = c → j.shortop = so → j.nearop = no →
      j.sel = sel → j.target.v.noWarn = nw →
      (copies (fun j pos => jmpBytes out j len pos) len n pos j).out = .ok r →
      (∀ k ∈ (copies (fun j pos => jmpBytes out j len pos) len n pos j).log, k.Sound) →
      (∀ k, k < n → ∃ o d, opcodeBytes (form j).1 = .ok o ∧ copy r.bytes len k = commonBytes c 0 ++ o ++ d ∧ d.length = (form j).2 ∧
        (leVal d : Int) = (meaning ρ w j.target.v - BitVec.ofNat 256 ((k + 1) * len)).toInt % 2 ^ (8 * (form j).2)) ∧
      (r.warns = [] ↔ nw = true ∨ ∀ k, k < n → Takes true (form j).2 (meaning ρ w j.target.v - BitVec.ofNat 256 ((k + 1) * len)).toInt) := by
  induction n with
  | zero =>
    intro j pos r _ _ _ _ _ _ _ hr _
    simp only [copies, Run.of] at hr
    cases hr
    simp
  | succ n ih =>
    intro j pos r hc fine h1 h2 h3 h4 h5 hr sound
    unfold copies at hr sound
    obtain ⟨e, he, hr, l1⟩ := Run.bind_out hr
    rw [l1] at sound
    obtain ⟨o, d, ho, hb, hd, hv, hw, f, hf, fine', hm, hnw⟩ := jmpBytes_disp writes hc fine hl he
      (fun k hk => sound k (List.mem_append_left _ hk))
    split at hr
    · cases hr
    rename_i hlen
    rw [if_neg hlen] at sound
    obtain ⟨q, hq, hr, l2⟩ := Run.bind_out hr
    rw [l2] at sound
    cases hr
    have hlen : e.bytes.length = len := by omega
    have hfm : form e.after = form j := by rw [hf]; rfl
    obtain ⟨i1, i2⟩ := ih e.after (pos + len) q (by rw [hf]; exact counted_target hc) (by rw [hf]; exact fine') (by rw [hf]; exact h1)
      (by rw [hf]; exact h2) (by rw [hf]; exact h3) (by rw [hf]; exact h4) (by rw [hf]; exact hnw.trans h5) hq
      (fun k hk => sound k (List.mem_append_right _ (List.mem_append_left _ hk)))
    have hmk : ∀ k, meaning ρ w e.after.target.v - BitVec.ofNat 256 ((k + 1) * len) =
        meaning ρ w j.target.v - BitVec.ofNat 256 ((k + 1 + 1) * len) := by
      intro k
      rw [hf]
      dsimp only
      rw [hm, show (k + 1 + 1) * len = len + (k + 1) * len by rw [Nat.succ_mul (k + 1)]; omega, BitVec.ofNat_add]
      grind
    simp only [hmk, hfm] at i1 i2
    constructor
    · intro k hk
      cases k with
      | zero =>
        refine ⟨o, d, ho, ?_, hd, ?_⟩
        · rw [copy_zero hlen, hb, h1]
        · simpa using hv
      | succ k =>
        rw [copy_succ hlen]
        exact i1 k (by omega)
    · rw [h5] at hw
      simp only [List.append_eq_nil_iff, hw, i2]
      constructor
      · rintro ⟨a, b⟩
        by_cases hn : nw = true
        · exact Or.inl hn
        · right
          replace a := a.resolve_left hn
          replace b := b.resolve_left hn
          intro k hk
          cases k with
          | zero => simpa using a
          | succ k => exact b k (by omega)
      · rintro (a | a)
        · exact ⟨Or.inl a, Or.inl a⟩
        · exact ⟨Or.inr (by simpa using a 0 (by omega)), Or.inr fun k hk => a (k + 1) (by omega)⟩

theorem counted_bound {j : Jmp} {len : Nat} (h : CountedJmp j len) : len ≤ 11 := by
  have h1 := h.len
  have h2 := form_len h
  have h3 : (form j).2 ≤ 4 := by
    unfold form
    split
    · exact (by decide : 1 ≤ 4)
    · exact (by decide : 1 ≤ 4)
    · dsimp only
      generalize (if j.common.opersize = 0 then j.common.mode else j.common.opersize) = z
      split <;> decide
  have h4 : commonLen j.common ≤ 4 := by
    unfold commonLen
    repeat' split
    all_goals omega
  omega

end Verif.Insn
