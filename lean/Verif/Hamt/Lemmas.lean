import Verif.Hamt.Bits
import Verif.Hamt.Spec

set_option linter.unusedSimpArgs false
set_option linter.unusedVariables false

namespace Verif.Hamt

variable {α : Type}

/-- The (key, keypartbits) pair in force at depth `d`. -/
def stAt (cfg : Cfg) (s : Key) : Nat → BitVec 64 × Nat
  | 0 => (cfg.hash s, 0)
  | d + 1 => advance cfg s d (stAt cfg s d)

def dig (cfg : Cfg) (s : Key) (d : Nat) : Nat := keypart (stAt cfg s d)

theorem keypart_lt (st : BitVec 64 × Nat) : keypart st < 32 := by
  unfold keypart
  rw [BitVec.toNat_and, show (0x1F#64).toNat = 2 ^ 5 - 1 by rfl, Nat.and_two_pow_sub_one_eq_mod]
  omega

theorem dig_lt (cfg : Cfg) (s : Key) (d : Nat) : dig cfg s d < 32 := keypart_lt _

theorem stAt_eq (cfg : Cfg) (s : Key) (d : Nat) :
    stAt cfg s d = (if d < 7 then cfg.hash s else cfg.rehash s (7 * (d / 7) - 1), 5 * (d % 7)) := by
  induction d with
  | zero => rfl
  | succ d ih =>
    rw [stAt, ih, advance]
    simp only
    by_cases h : d % 7 = 6
    · rw [if_pos (by omega)]
      have e1 : (d + 1) % 7 = 0 := by omega
      have e2 : 7 * ((d + 1) / 7) - 1 = d := by omega
      rw [e1, e2, if_neg (by omega)]
    · rw [if_neg (by omega)]
      have e1 : (d + 1) % 7 = d % 7 + 1 := by omega
      have e2 : (d + 1) / 7 = d / 7 := by omega
      rw [e1, e2]
      by_cases h7 : d < 7
      · rw [if_pos h7, if_pos (by omega)]
        rfl
      · rw [if_neg h7, if_neg (by omega)]
        rfl

theorem group_eq_dig (cfg : Cfg) (s : Key) (d : Nat) : Spec.group cfg s d = dig cfg s d := by
  unfold Spec.group dig keypart
  rw [stAt_eq]
  simp only
  rw [BitVec.toNat_and, show (0x1F#64).toNat = 2 ^ 5 - 1 by rfl, Nat.and_two_pow_sub_one_eq_mod,
    BitVec.toNat_ushiftRight, Nat.shiftRight_eq_div_pow]

theorem stAt_snd (cfg : Cfg) (s t : Key) (d : Nat) : (stAt cfg s d).2 = (stAt cfg t d).2 := by
  rw [stAt_eq, stAt_eq]

/-- Equal keys hash equally. -/
def Lawful (cfg : Cfg) : Prop :=
  ∀ a b, cfg.eqv a b = true → cfg.hash a = cfg.hash b ∧ ∀ l, cfg.rehash a l = cfg.rehash b l

theorem stAt_congr {cfg : Cfg} (hl : Lawful cfg) {a b : Key} (h : cfg.eqv a b = true) (d : Nat) :
    stAt cfg a d = stAt cfg b d := by
  obtain ⟨h1, h2⟩ := hl a b h
  rw [stAt_eq, stAt_eq, h1, h2]

/-- Following the digits of `s` from a node at depth `d` ends at leaf number `i`. -/
inductive Reach (cfg : Cfg) (s : Key) : Nat → Node → Nat → Prop
  | leaf (d k i) : Reach cfg s d (.leaf k i) i
  | sub (d bm ch c i) : childAt bm ch (dig cfg s (d + 1)) = some c → Reach cfg s (d + 1) c i →
      Reach cfg s d (.sub bm ch) i

/-- The digits of `s` up to depth `d` are those of the path `pre`. -/
def OnPath (cfg : Cfg) (s : Key) (pre : Nat → Nat) (d : Nat) : Prop :=
  ∀ d0, d0 ≤ d → dig cfg s d0 = pre d0

def extend (pre : Nat → Nat) (d k : Nat) : Nat → Nat := fun j => if j = d + 1 then k else pre j

theorem OnPath.extend {cfg : Cfg} {s : Key} {pre : Nat → Nat} {d : Nat} (h : OnPath cfg s pre d) :
    OnPath cfg s (extend pre d (dig cfg s (d + 1))) (d + 1) := by
  intro d0 hd
  unfold Hamt.extend
  split
  · rename_i h; rw [h]
  · exact h d0 (by omega)

/-- Well-formed node at depth `d` at the end of the path `pre`. -/
inductive WF (cfg : Cfg) (ents : List (Key × α)) : Nat → (Nat → Nat) → Node → Prop
  | leaf (d pre k i e) : ents[i]? = some e → k = (stAt cfg e.1 d).1 → OnPath cfg e.1 pre d →
      WF cfg ents d pre (.leaf k i)
  | sub (d pre bm ch) : ArrOk bm ch →
      (∀ k c, k < 32 → childAt bm ch k = some c → WF cfg ents (d + 1) (extend pre d k) c) →
      WF cfg ents d pre (.sub bm ch)

theorem Reach.unique {cfg : Cfg} {s : Key} {d : Nat} {n : Node} {i : Nat} (h : Reach cfg s d n i) :
    ∀ {t : Key} {j : Nat}, (∀ d', dig cfg s d' = dig cfg t d') → Reach cfg t d n j → i = j := by
  induction h with
  | leaf d k i => intro t j _ h; cases h; rfl
  | sub d bm ch c i hc _ ih =>
    intro t j hd h
    cases h with
    | sub _ _ _ c' _ hc' h' =>
      rw [hd, hc'] at hc
      cases hc
      exact ih hd h'

theorem Reach.congr {cfg : Cfg} {s : Key} {d : Nat} {n : Node} {i : Nat} (h : Reach cfg s d n i) :
    ∀ {t : Key}, (∀ d', dig cfg s d' = dig cfg t d') → Reach cfg t d n i := by
  induction h with
  | leaf d k i => intro t _; exact .leaf d k i
  | sub d bm ch c i hc _ ih =>
    intro t hd
    exact .sub d bm ch c i (by rw [← hd]; exact hc) (ih hd)

theorem WF.congr {α : Type} {cfg : Cfg} {ents ents' : List (Key × α)} {d : Nat} {pre : Nat → Nat}
    {n : Node} (h : WF cfg ents d pre n)
    (hc : ∀ (i : Nat) (e : Key × α), ents[i]? = some e →
      ∃ e' : Key × α, ents'[i]? = some e' ∧ ∀ d, stAt cfg e'.1 d = stAt cfg e.1 d) :
    WF cfg ents' d pre n := by
  induction h with
  | leaf d pre k i e he hk hp =>
    obtain ⟨e', he', hd⟩ := hc i e he
    exact .leaf d pre k i e' he' (by rw [hd]; exact hk)
      (fun d0 h0 => by unfold dig; rw [hd]; exact hp d0 h0)
  | sub d pre bm ch ha _ ih => exact .sub d pre bm ch ha ih

theorem getElem?_append_old {l : List (Key × α)} {i : Nat} {e : Key × α} (x : Key × α)
    (h : l[i]? = some e) : (l ++ [x])[i]? = some e := by
  have := (List.getElem?_eq_some_iff.mp h).1
  rw [List.getElem?_append_left this, h]

theorem WF.append {cfg : Cfg} {ents : List (Key × α)} {d : Nat} {pre : Nat → Nat} {n : Node}
    (x : Key × α) (h : WF cfg ents d pre n) : WF cfg (ents ++ [x]) d pre n :=
  h.congr (fun _ e he => ⟨e, getElem?_append_old x he, fun _ => rfl⟩)

/-! ### Building downward -/

theorem arrOk_single (k : Nat) (hk : k < 32) (c : Node) : ArrOk (intBit k) [c] := by
  have h0 : ArrOk 0#64 [] := ⟨zero_normal, by decide +kernel⟩
  have := arrOk_insert h0 hk (by simp [present]) c
  simpa using this

theorem childAt_single (k : Nat) (hk : k < 32) (c : Node) (j : Nat) (hj : j < 32) :
    childAt (intBit k) [c] j = if j = k then some c else none := by
  have h0 : ArrOk 0#64 [] := ⟨zero_normal, by decide +kernel⟩
  have := childAt_insert h0 hk (by simp [present]) c j hj
  simpa [childAt] using this

theorem rank_two (k k2 : Nat) (hk : k < 32) (hk2 : k2 < 32) (hne : k ≠ k2) (n : Nat) (hn : n ≤ 32) :
    rank ((1#64 <<< k) ||| (1#64 <<< k2)) n = (if k < n then 1 else 0) + (if k2 < n then 1 else 0) := by
  induction n with
  | zero => simp [rank]
  | succ n ih =>
    rw [rank, ih (by omega), two_present k k2 n hk hk2 (by omega)]
    by_cases h1 : n = k <;> by_cases h2 : n = k2
    · omega
    · subst h1; simp [show n < n + 1 by omega, h2]
      by_cases h3 : k2 < n
      · simp [h3, show k2 < n + 1 by omega]
      · simp [h3, show ¬ k2 < n + 1 by omega]
    · subst h2
      by_cases h3 : k < n
      · simp [h3, show k < n + 1 by omega]
      · simp [h3, h1, show ¬ k < n + 1 by omega]
    · simp only [h1, h2]
      have e1 : (k < n + 1) ↔ (k < n) := by omega
      have e2 : (k2 < n + 1) ↔ (k2 < n) := by omega
      simp [e1, e2]

theorem arrOk_two (k k2 : Nat) (hk : k < 32) (hk2 : k2 < 32) (hne : k ≠ k2) (a b : Node) :
    ArrOk ((1#64 <<< k) ||| (1#64 <<< k2)) (if k2 < k then [b, a] else [a, b]) := by
  refine ⟨two_normal k k2 hk hk2, ?_⟩
  rw [rank_two k k2 hk hk2 hne 32 (by omega)]
  split <;> simp [hk, hk2]

theorem childAt_two (k k2 : Nat) (hk : k < 32) (hk2 : k2 < 32) (hne : k ≠ k2) (a b : Node)
    (j : Nat) (hj : j < 32) :
    childAt ((1#64 <<< k) ||| (1#64 <<< k2)) (if k2 < k then [b, a] else [a, b]) j =
      if j = k then some a else if j = k2 then some b else none := by
  unfold childAt
  rw [two_present k k2 j hk hk2 hj, rank_two k k2 hk hk2 hne j (by omega)]
  by_cases h1 : j = k
  · subst h1
    by_cases h2 : k2 < j
    · simp [h2]
    · simp [h2]
  · by_cases h2 : j = k2
    · subst h2
      by_cases h3 : j < k
      · simp [h3, h1, show ¬ k < j by omega]
      · simp [h3, h1, show k < j by omega]
    · simp [h1, h2]

theorem build_spec (cfg : Cfg) (ents' : List (Key × α)) (s t : Key) (new old : Nat) (es et : Key × α)
    (hs : ents'[new]? = some es) (hes : es.1 = s) (ht : ents'[old]? = some et) (het : et.1 = t)
    (fuel : Nat) : ∀ d pre, OnPath cfg s pre d → OnPath cfg t pre d →
    (∃ n, build cfg s new t old fuel d (stAt cfg s d) (stAt cfg t d) = .ok n ∧ WF cfg ents' d pre n ∧
      Reach cfg s d n new ∧ Reach cfg t d n old ∧ ∃ f, f < fuel ∧ dig cfg s (d + 1 + f) ≠ dig cfg t (d + 1 + f)) ∨
    (build cfg s new t old fuel d (stAt cfg s d) (stAt cfg t d) = .diverged ∧
      ∀ f, f < fuel → dig cfg s (d + 1 + f) = dig cfg t (d + 1 + f)) := by
  induction fuel with
  | zero => intro d pre _ _; right; exact ⟨rfl, by intro f hf; omega⟩
  | succ fuel ih =>
    intro d pre hps hpt
    have hkp : keypart (stAt cfg s (d + 1)) = dig cfg s (d + 1) := rfl
    have hkp2 : keypart (stAt cfg t (d + 1)) = dig cfg t (d + 1) := rfl
    have hst : advance cfg s d (stAt cfg s d) = stAt cfg s (d + 1) := rfl
    have htt : advance cfg t d (stAt cfg t d) = stAt cfg t (d + 1) := rfl
    have hk := dig_lt cfg s (d + 1)
    have hk2 := dig_lt cfg t (d + 1)
    unfold build
    simp only [hst, htt, hkp, hkp2]
    by_cases heq : dig cfg s (d + 1) = dig cfg t (d + 1)
    · rw [if_pos heq]
      rcases ih (d + 1) (extend pre d (dig cfg s (d + 1))) hps.extend
        (by have := hpt.extend; rwa [← heq] at this) with ⟨n, hb, hw, hr1, hr2, f, hf, hne⟩ | ⟨hb, hall⟩
      · left
        rw [hb]
        refine ⟨_, rfl, ?_, ?_, ?_, f + 1, by omega, ?_⟩
        · refine .sub _ _ _ _ (arrOk_single _ hk _) ?_
          intro j c hj hc
          have := childAt_single _ hk n j hj
          rw [this] at hc
          split at hc
          · rename_i hjk; cases hc; rw [hjk]; exact hw
          · cases hc
        · refine .sub _ _ _ n _ ?_ hr1
          have := childAt_single _ hk n (dig cfg s (d + 1)) hk
          simpa using this
        · refine .sub _ _ _ n _ ?_ hr2
          have := childAt_single _ hk n (dig cfg t (d + 1)) hk2
          rw [if_pos heq.symm] at this
          exact this
        · rw [show d + 1 + (f + 1) = d + 1 + 1 + f by omega]; exact hne
      · right
        rw [hb]
        refine ⟨rfl, ?_⟩
        intro f hf
        cases f with
        | zero => simpa using heq
        | succ f => rw [show d + 1 + (f + 1) = d + 1 + 1 + f by omega]; exact hall f (by omega)
    · rw [if_neg heq]
      left
      have hch := childAt_two _ _ hk hk2 heq (.leaf (stAt cfg s (d + 1)).1 new)
        (.leaf (stAt cfg t (d + 1)).1 old)
      refine ⟨_, rfl, ?_, ?_, ?_, 0, by omega, by simpa using heq⟩
      · refine .sub _ _ _ _ (arrOk_two _ _ hk hk2 heq _ _) ?_
        intro j c hj hc
        have := hch j hj
        rw [this] at hc
        split at hc
        · rename_i hjk; cases hc; rw [hjk]
          exact .leaf _ _ _ _ es hs (by rw [hes]) (by rw [hes]; exact hps.extend)
        · split at hc
          · rename_i hjk; cases hc; rw [hjk]
            exact .leaf _ _ _ _ et ht (by rw [het]) (by rw [het]; exact hpt.extend)
          · cases hc
      · refine .sub _ _ _ (.leaf (stAt cfg s (d + 1)).1 new) _ ?_ (.leaf _ _ _)
        have := hch _ hk
        simpa using this
      · refine .sub _ _ _ (.leaf (stAt cfg t (d + 1)).1 old) _ ?_ (.leaf _ _ _)
        have := hch _ hk2
        rw [this, if_neg (fun h => heq h.symm), if_pos rfl]

/-! ### Descent -/

theorem insNode_absent (cfg : Cfg) (ents : List (Key × α)) (s : Key) (new fuel d : Nat)
    (st : BitVec 64 × Nat) (bm : BitVec 64) (ch : List Node) (k m : Nat)
    (hk : keypart (advance cfg s d st) = k) (hz : bm &&& intBit k = 0)
    (hm : mapIdx (bm ||| intBit k) k = m)
    (hsz : mapSize (bm ||| intBit k) = ch.length + 1 ∧ m ≤ ch.length) :
    insNode cfg ents s new fuel d st (.sub bm ch) =
      .ok (.sub (bm ||| intBit k) (ch.take m ++ .leaf (advance cfg s d st).1 new :: ch.drop m), .added) := by
  subst hk hm
  rw [insNode]
  simp only
  rw [if_pos hz, if_pos hsz]

theorem insNode_present (cfg : Cfg) (ents : List (Key × α)) (s : Key) (new fuel d : Nat)
    (st : BitVec 64 × Nat) (bm : BitVec 64) (ch : List Node) (k m : Nat) (c : Node)
    (hk : keypart (advance cfg s d st) = k) (hz : ¬ bm &&& intBit k = 0)
    (hm : mapIdx bm k = m) (hc : ch[m]? = some c) :
    insNode cfg ents s new fuel d st (.sub bm ch) =
      match insNode cfg ents s new fuel (d + 1) (advance cfg s d st) c with
        | .ok (c', f) => .ok (.sub bm (ch.set m c'), f)
        | .diverged => .diverged
        | .ub => .ub := by
  subst hk hm
  generalize hR : insNode cfg ents s new fuel (d + 1) (advance cfg s d st) c = R
  rw [insNode]
  simp only
  rw [if_neg hz]
  split
  · rename_i h; rw [hc] at h; cases h
  · rename_i c1 h; rw [hc] at h; cases h; rw [hR]; rcases R with ⟨⟨_, _⟩⟩ | _ | _ <;> rfl

theorem searchNode_absent (cfg : Cfg) (ents : List (Key × α)) (s : Key) (d : Nat)
    (st : BitVec 64 × Nat) (bm : BitVec 64) (ch : List Node) (k : Nat)
    (hk : keypart (advance cfg s d st) = k) (hz : bm &&& intBit k = 0) :
    searchNode cfg ents s d st (.sub bm ch) = .ok none := by
  subst hk
  rw [searchNode]
  rw [if_pos hz]

theorem searchNode_present (cfg : Cfg) (ents : List (Key × α)) (s : Key) (d : Nat)
    (st : BitVec 64 × Nat) (bm : BitVec 64) (ch : List Node) (k : Nat) (c : Node)
    (hk : keypart (advance cfg s d st) = k) (hz : ¬ bm &&& intBit k = 0)
    (hc : ch[mapIdx bm k]? = some c) :
    searchNode cfg ents s d st (.sub bm ch) =
      searchNode cfg ents s (d + 1) (advance cfg s d st) c := by
  subst hk
  conv => lhs; rw [searchNode]
  rw [if_neg hz]
  split
  · rename_i h; rw [hc] at h; cases h
  · rename_i c1 h; rw [hc] at h; cases h; rfl

theorem insNode_spec {cfg : Cfg} (hl : Lawful cfg) {ents : List (Key × α)} (s : Key) (x : α)
    (fuel : Nat) {d : Nat} {pre : Nat → Nat} {n : Node} (hwf : WF cfg ents d pre n)
    (hps : OnPath cfg s pre d) :
    (∃ n' i e, insNode cfg ents s ents.length fuel d (stAt cfg s d) n = .ok (n', .existing i) ∧
      Reach cfg s d n i ∧ ents[i]? = some e ∧ cfg.eqv e.1 s = true) ∨
    (∃ n', insNode cfg ents s ents.length fuel d (stAt cfg s d) n = .ok (n', .added) ∧
      WF cfg (ents ++ [(s, x)]) d pre n' ∧ Reach cfg s d n' ents.length ∧
      (∀ j e, ents[j]? = some e → Reach cfg e.1 d n j → Reach cfg e.1 d n' j) ∧
      (∀ i e, Reach cfg s d n i → ents[i]? = some e → cfg.eqv e.1 s = false ∧
        ¬ ∀ d', dig cfg s d' = dig cfg e.1 d')) ∨
    (insNode cfg ents s ents.length fuel d (stAt cfg s d) n = .diverged ∧
      ∃ i e d', Reach cfg s d n i ∧ ents[i]? = some e ∧ cfg.eqv e.1 s = false ∧
        (∀ f, f < d' + 1 + fuel → dig cfg s f = dig cfg e.1 f)) := by
  have hnew : (ents ++ [(s, x)])[ents.length]? = some (s, x) := by simp
  induction hwf with
  | leaf d pre k i e he hk hpe =>
    rw [insNode]
    simp only [he]
    by_cases heq : k = (stAt cfg s d).1 ∧ cfg.eqv e.1 s = true
    · left
      rw [if_pos heq]
      exact ⟨_, i, e, rfl, .leaf _ _ _, he, heq.2⟩
    · rw [if_neg heq]
      have hne : cfg.eqv e.1 s = false := by
        cases hc : cfg.eqv e.1 s
        · rfl
        · exact absurd ⟨by rw [hk, stAt_congr hl hc], hc⟩ heq
      have hpair : (k, (stAt cfg s d).2) = stAt cfg e.1 d := by
        rw [hk, stAt_snd cfg s e.1 d]
      rw [hpair]
      rcases build_spec cfg (ents ++ [(s, x)]) s e.1 ents.length i (s, x) e hnew rfl
        (getElem?_append_old _ he) rfl fuel d pre hps hpe with ⟨n, hb, hw, hr1, hr2, f, hf, hdne⟩ | ⟨hb, hall⟩
      · right; left
        rw [hb]
        refine ⟨n, rfl, hw, hr1, ?_, ?_⟩
        · intro j e' he' hr
          cases hr
          rw [he] at he'
          cases he'
          exact hr2
        · intro j e' hr he'
          cases hr
          rw [he] at he'
          cases he'
          exact ⟨hne, fun h => hdne (h _)⟩
      · right; right
        rw [hb]
        refine ⟨rfl, i, e, d, .leaf _ _ _, he, hne, ?_⟩
        intro f hf
        by_cases hfd : f ≤ d
        · rw [hps f hfd, hpe f hfd]
        · have := hall (f - (d + 1)) (by omega)
          rwa [show d + 1 + (f - (d + 1)) = f by omega] at this
  | sub d pre bm ch ha hch ih =>
    have hst : advance cfg s d (stAt cfg s d) = stAt cfg s (d + 1) := rfl
    have hklt := dig_lt cfg s (d + 1)
    have hkp : keypart (advance cfg s d (stAt cfg s d)) = dig cfg s (d + 1) := rfl
    have hpx := hps.extend
    generalize hK : dig cfg s (d + 1) = K at *
    cases hp : present bm K with
    | false =>
      have hz := (and_intBit_zero bm ha.normal K hklt).mpr hp
      have hrle : rank bm K ≤ ch.length := by
        rw [ha.len]; exact rank_mono bm (by omega)
      have hmi : mapIdx (bm ||| intBit K) K = rank bm K := by
        rw [mapIdx_rank _ _ hklt, rank_or bm K hklt hp K (by omega)]; simp
      have hsz : mapSize (bm ||| intBit K) = ch.length + 1 := by
        have hr : rank (bm ||| intBit K) 32 = ch.length + 1 := by
          rw [rank_or bm K hklt hp 32 (by omega), ha.len]; simp [hklt]
        rw [mapSize_rank _ (by omega), hr]
      rw [insNode_absent cfg ents s ents.length fuel d _ bm ch K _ hkp hz hmi ⟨hsz, hrle⟩, hst]
      right; left
      refine ⟨_, rfl, ?_, ?_, ?_, ?_⟩
      · refine .sub _ _ _ _ (arrOk_insert ha hklt hp _) ?_
        intro j c hj hc
        rw [childAt_insert ha hklt hp _ j hj] at hc
        split at hc
        · rename_i hjk; cases hc; rw [hjk]; exact .leaf _ _ _ _ (s, x) hnew rfl hpx
        · exact (hch j c hj hc).append _
      · refine .sub _ _ _ (.leaf (stAt cfg s (d + 1)).1 ents.length) _ ?_ (.leaf _ _ _)
        rw [hK, childAt_insert ha hklt hp _ K hklt]; simp
      · intro j e he hr
        cases hr with
        | sub _ _ _ c _ hc hr =>
          refine .sub _ _ _ c _ ?_ hr
          have hdl := dig_lt cfg e.1 (d + 1)
          rw [childAt_insert ha hklt hp _ _ hdl, if_neg, hc]
          intro h
          rw [h] at hc
          simp [childAt, hp] at hc
      · intro i e hr
        cases hr with
        | sub _ _ _ c _ hc hr =>
          rw [hK] at hc
          simp [childAt, hp] at hc
    | true =>
      have hz : ¬ bm &&& intBit K = 0 := by
        rw [and_intBit_zero bm ha.normal K hklt, hp]; simp
      obtain ⟨c, hc⟩ := childAt_isSome ha hklt hp
      have hcat : childAt bm ch K = some c := by simp [childAt, hp, hc]
      have hmi : mapIdx bm K = rank bm K := mapIdx_rank bm K hklt
      rw [insNode_present cfg ents s ents.length fuel d _ bm ch K _ c hkp hz hmi hc, hst]
      rcases ih K c hklt hcat hpx with ⟨n', i, e, h1, h2, h3, h4⟩ | ⟨n', h1, h2, h3, h4, h5⟩ |
        ⟨h1, i, e, d', h2, h3, h4, h5⟩
      · left
        rw [h1]
        exact ⟨_, i, e, rfl, .sub _ _ _ c _ (by rw [hK]; exact hcat) h2, h3, h4⟩
      · right; left
        rw [h1]
        refine ⟨_, rfl, ?_, ?_, ?_, ?_⟩
        · refine .sub _ _ _ _ (arrOk_set ha _ _) ?_
          intro j c2 hj hc2
          rw [childAt_set ha hklt hp n' j hj] at hc2
          split at hc2
          · rename_i hjk; cases hc2; rw [hjk]; exact h2
          · exact (hch j c2 hj hc2).append _
        · refine .sub _ _ _ n' _ ?_ h3
          rw [hK, childAt_set ha hklt hp n' K hklt]; simp
        · intro j e he hr
          cases hr with
          | sub _ _ _ c2 _ hc2 hr =>
            have hdl := dig_lt cfg e.1 (d + 1)
            by_cases hKe : dig cfg e.1 (d + 1) = K
            · rw [hKe, hcat] at hc2
              cases hc2
              refine .sub _ _ _ n' _ ?_ (h4 j e he hr)
              rw [hKe, childAt_set ha hklt hp n' K hklt]; simp
            · refine .sub _ _ _ c2 _ ?_ hr
              rw [childAt_set ha hklt hp n' _ hdl, if_neg hKe, hc2]
        · intro i e hr
          cases hr with
          | sub _ _ _ c2 _ hc2 hr =>
            rw [hK, hcat] at hc2
            cases hc2
            exact h5 i e hr
      · right; right
        rw [h1]
        exact ⟨rfl, i, e, d', .sub _ _ _ c _ (by rw [hK]; exact hcat) h2, h3, h4, h5⟩

theorem searchNode_spec {cfg : Cfg} (hl : Lawful cfg) {ents : List (Key × α)} (s : Key) {d : Nat}
    {pre : Nat → Nat} {n : Node} (hwf : WF cfg ents d pre n) :
    (∃ i e, Reach cfg s d n i ∧ ents[i]? = some e ∧ cfg.eqv e.1 s = true ∧
      searchNode cfg ents s d (stAt cfg s d) n = .ok (some e.2)) ∨
    ((∀ i e, Reach cfg s d n i → ents[i]? = some e → cfg.eqv e.1 s = false) ∧
      searchNode cfg ents s d (stAt cfg s d) n = .ok none) := by
  induction hwf with
  | leaf d pre k i e he hk hpe =>
    rw [searchNode]
    simp only [he]
    by_cases heq : k = (stAt cfg s d).1 ∧ cfg.eqv e.1 s = true
    · left
      rw [if_pos heq]
      exact ⟨i, e, .leaf _ _ _, he, heq.2, rfl⟩
    · right
      rw [if_neg heq]
      refine ⟨?_, rfl⟩
      intro j e' hr he'
      cases hr
      rw [he] at he'
      cases he'
      cases hc : cfg.eqv e.1 s
      · rfl
      · exact absurd ⟨by rw [hk, stAt_congr hl hc], hc⟩ heq
  | sub d pre bm ch ha hch ih =>
    have hst : advance cfg s d (stAt cfg s d) = stAt cfg s (d + 1) := rfl
    have hklt := dig_lt cfg s (d + 1)
    have hkp : keypart (advance cfg s d (stAt cfg s d)) = dig cfg s (d + 1) := rfl
    generalize hK : dig cfg s (d + 1) = K at *
    cases hp : present bm K with
    | false =>
      have hz := (and_intBit_zero bm ha.normal K hklt).mpr hp
      right
      refine ⟨?_, searchNode_absent cfg ents s d _ bm ch K hkp hz⟩
      intro i e hr
      cases hr with
      | sub _ _ _ c _ hc hr =>
        rw [hK] at hc
        simp [childAt, hp] at hc
    | true =>
      have hz : ¬ bm &&& intBit K = 0 := by
        rw [and_intBit_zero bm ha.normal K hklt, hp]; simp
      obtain ⟨c, hc⟩ := childAt_isSome ha hklt hp
      have hcat : childAt bm ch K = some c := by simp [childAt, hp, hc]
      have hmi : mapIdx bm K = rank bm K := mapIdx_rank bm K hklt
      rw [searchNode_present cfg ents s d _ bm ch K c hkp hz (by rw [hmi]; exact hc), hst]
      rcases ih K c hklt hcat with ⟨i, e, h1, h2, h3, h4⟩ | ⟨h1, h2⟩
      · left
        exact ⟨i, e, .sub _ _ _ c _ (by rw [hK]; exact hcat) h1, h2, h3, h4⟩
      · right
        refine ⟨?_, h2⟩
        intro i e hr
        cases hr with
        | sub _ _ _ c2 _ hc2 hr =>
          rw [hK, hcat] at hc2
          cases hc2
          exact h1 i e hr

/-! ### Tables -/

structure Inv (cfg : Cfg) (h : Hamt α) : Prop where
  wf : ∀ k n, h.root k = some n → WF cfg h.entries 0 (fun _ => k) n
  reach : ∀ j e, h.entries[j]? = some e →
    ∃ n, h.root (dig cfg e.1 0) = some n ∧ Reach cfg e.1 0 n j

theorem create_inv (cfg : Cfg) : Inv cfg (create α) :=
  ⟨by intro k n h; simp [create] at h, by intro j e h; simp [create] at h⟩

/-- Entries equal to `s` are reached by the digits of `s`. -/
theorem Inv.reach_eqv {cfg : Cfg} (hl : Lawful cfg) {h : Hamt α} (hi : Inv cfg h) {j : Nat}
    {e : Key × α} (he : h.entries[j]? = some e) {s : Key} (hq : cfg.eqv e.1 s = true) :
    ∃ n, h.root (dig cfg s 0) = some n ∧ Reach cfg s 0 n j := by
  obtain ⟨n, h1, h2⟩ := hi.reach j e he
  have hd : ∀ d, dig cfg e.1 d = dig cfg s d := fun d => by unfold dig; rw [stAt_congr hl hq]
  exact ⟨n, by rw [← hd]; exact h1, h2.congr hd⟩

/-- Only one entry can equal a given string. -/
theorem Inv.eqv_unique {cfg : Cfg} (hl : Lawful cfg) {h : Hamt α} (hi : Inv cfg h) {i j : Nat}
    {e e' : Key × α} {s : Key} (he : h.entries[i]? = some e) (he' : h.entries[j]? = some e')
    (hq : cfg.eqv e.1 s = true) (hq' : cfg.eqv e'.1 s = true) : i = j := by
  obtain ⟨n, h1, h2⟩ := hi.reach_eqv hl he hq
  obtain ⟨n', h1', h2'⟩ := hi.reach_eqv hl he' hq'
  rw [h1] at h1'
  cases h1'
  exact h2.unique (fun _ => rfl) h2'

theorem Inv.find_some {cfg : Cfg} (hl : Lawful cfg) {h : Hamt α} (hi : Inv cfg h) {i : Nat}
    {e : Key × α} {s : Key} (he : h.entries[i]? = some e) (hq : cfg.eqv e.1 s = true) :
    Spec.find cfg.eqv h.entries s = some e := by
  unfold Spec.find
  cases hf : h.entries.find? (fun e => cfg.eqv e.1 s) with
  | none =>
    rw [List.find?_eq_none] at hf
    exact absurd hq (by simpa using hf e (List.mem_of_getElem? he))
  | some e' =>
    have hm := List.mem_of_find?_eq_some hf
    have hq' : cfg.eqv e'.1 s = true := by simpa using List.find?_some hf
    obtain ⟨j, hj⟩ := List.getElem?_of_mem hm
    have := hi.eqv_unique hl he hj hq hq'
    subst this
    rw [he] at hj
    cases hj
    rfl

theorem find_none {eqv : Key → Key → Bool} {l : List (Key × α)} {s : Key}
    (h : ∀ (i : Nat) (e : Key × α), l[i]? = some e → eqv e.1 s = false) : Spec.find eqv l s = none := by
  unfold Spec.find
  rw [List.find?_eq_none]
  intro e he
  obtain ⟨i, hi⟩ := List.getElem?_of_mem he
  simp [h i e hi]

theorem search_spec {cfg : Cfg} (hl : Lawful cfg) {h : Hamt α} (hi : Inv cfg h) (s : Key) :
    search cfg h s = .ok ((Spec.find cfg.eqv h.entries s).map (·.2)) := by
  unfold search
  have hk0 : keypart (cfg.hash s, 0) = dig cfg s 0 := rfl
  simp only [hk0]
  cases hr : h.root (dig cfg s 0) with
  | none =>
    rw [find_none]
    · rfl
    · intro i e he
      cases hq : cfg.eqv e.1 s
      · rfl
      · obtain ⟨n, h1, _⟩ := hi.reach_eqv hl he hq
        rw [hr] at h1; cases h1
  | some n =>
    simp only
    rcases searchNode_spec hl s (hi.wf _ n hr) with ⟨i, e, h1, h2, h3, h4⟩ | ⟨h1, h2⟩
    · have h4' : searchNode cfg h.entries s 0 (cfg.hash s, 0) n = .ok (some e.2) := h4
      rw [h4', hi.find_some hl h2 h3]
      rfl
    · have h2' : searchNode cfg h.entries s 0 (cfg.hash s, 0) n = .ok none := h2
      rw [h2', find_none]
      · rfl
      · intro i e he
        cases hq : cfg.eqv e.1 s
        · rfl
        · obtain ⟨n', h3, h4⟩ := hi.reach_eqv hl he hq
          rw [hr] at h3; cases h3
          rw [h1 i e h4 he] at hq; cases hq

theorem set_eq_map (p : Key × α → Bool) (x : Key × α) : ∀ (l : List (Key × α)) (i : Nat) (e : Key × α),
    l[i]? = some e → p e = true → (∀ j e', l[j]? = some e' → p e' = true → j = i) →
    l.set i x = l.map (fun e => if p e then x else e) := by
  intro l
  induction l with
  | nil => intro i e h; simp at h
  | cons a l ih =>
    intro i e h hp hu
    cases i with
    | zero =>
      simp only [List.getElem?_cons_zero, Option.some.injEq] at h
      subst h
      simp only [List.set_cons_zero, List.map_cons, hp, if_true, List.cons.injEq, true_and]
      symm
      have : ∀ b ∈ l, (if p b = true then x else b) = b := by
        intro b hb
        obtain ⟨j, hj⟩ := List.getElem?_of_mem hb
        rw [if_neg]
        intro hpb
        have := hu (j + 1) b (by simpa using hj) hpb
        omega
      rw [List.map_congr_left this]
      simp
    | succ i =>
      simp only [List.getElem?_cons_succ] at h
      have ha : p a = false := by
        cases hpa : p a
        · rfl
        · have := hu 0 a rfl hpa; omega
      simp only [List.set_cons_succ, List.map_cons, ha, List.cons.injEq]
      refine ⟨by simp, ih i e h hp ?_⟩
      intro j e' hj hpe
      have := hu (j + 1) e' (by simpa using hj) hpe
      omega

theorem insert_spec {cfg : Cfg} (hl : Lawful cfg) {h : Hamt α} (hi : Inv cfg h) (fuel : Nat) (s : Key)
    (x : α) (replace : Bool) :
    (∃ h', insert cfg fuel h s x replace = .ok (h', Spec.result cfg.eqv h.entries s x replace) ∧
      Inv cfg h' ∧ h'.entries = Spec.insert cfg.eqv h.entries s x replace ∧
      (∀ e ∈ h.entries, cfg.eqv e.1 s = false → ¬ ∀ d, dig cfg s d = dig cfg e.1 d)) ∨
    (insert cfg fuel h s x replace = .diverged ∧
      ∃ e ∈ h.entries, cfg.eqv e.1 s = false ∧ ∀ d, d < fuel →
        dig cfg s d = dig cfg e.1 d) := by
  have hk0 : keypart (cfg.hash s, 0) = dig cfg s 0 := rfl
  have hcoll : ∀ j e, h.entries[j]? = some e → (∀ d, dig cfg s d = dig cfg e.1 d) →
      ∃ n, h.root (dig cfg s 0) = some n ∧ Reach cfg s 0 n j := by
    intro j e he hd
    obtain ⟨n, h1, h2⟩ := hi.reach j e he
    exact ⟨n, by rw [hd]; exact h1, h2.congr (fun d => (hd d).symm)⟩
  cases hr : h.root (dig cfg s 0) with
  | none =>
    left
    have hno : Spec.find cfg.eqv h.entries s = none := by
      apply find_none
      intro i e he
      cases hq : cfg.eqv e.1 s
      · rfl
      · obtain ⟨n, h1, _⟩ := hi.reach_eqv hl he hq
        rw [hr] at h1; cases h1
    refine ⟨⟨h.entries ++ [(s, x)], fun j => if j = dig cfg s 0 then
      some (.leaf (cfg.hash s) h.entries.length) else h.root j⟩, ?_, ⟨?_, ?_⟩, ?_, ?_⟩
    · unfold insert
      simp only [hk0, hr, Spec.result, hno]
    · intro k n hn
      simp only at hn
      split at hn
      · rename_i hk; cases hn
        exact .leaf _ _ _ _ (s, x) (by simp) rfl (by intro d0 h0; rw [show d0 = 0 by omega, hk])
      · exact (hi.wf k n hn).append _
    · intro j e he
      simp only at he ⊢
      by_cases hj : j < h.entries.length
      · rw [List.getElem?_append_left hj] at he
        obtain ⟨n, h1, h2⟩ := hi.reach j e he
        refine ⟨n, ?_, h2⟩
        rw [if_neg, h1]
        intro hc; rw [hc, hr] at h1; cases h1
      · have hje : j = h.entries.length := by
          have := (List.getElem?_eq_some_iff.mp he).1
          simp at this; omega
        subst hje
        simp at he
        subst he
        exact ⟨.leaf (cfg.hash s) h.entries.length, by simp, .leaf _ _ _⟩
    · simp [Spec.insert, hno]
    · intro e he _ hd
      obtain ⟨j, hj⟩ := List.getElem?_of_mem he
      obtain ⟨n, h1, _⟩ := hcoll j e hj hd
      rw [hr] at h1; cases h1
  | some n =>
    have hst : stAt cfg s 0 = (cfg.hash s, 0) := rfl
    rcases insNode_spec hl s x fuel (hi.wf _ n hr)
      (by intro d0 h0; rw [show d0 = 0 by omega]) with ⟨n', i, e, h1, h2, h3, h4⟩ |
      ⟨n', h1, h2, h3, h4, h5⟩ | ⟨h1, i, e, d', h2, h3, h4, h5⟩
    · left
      rw [hst] at h1
      have hf := hi.find_some hl h3 h4
      have hdig : ∀ d, stAt cfg e.1 d = stAt cfg s d := fun d => stAt_congr hl h4 d
      have hlast : ∀ e' ∈ h.entries, cfg.eqv e'.1 s = false → ¬ ∀ d, dig cfg s d = dig cfg e'.1 d := by
        intro e' he' hq hd
        obtain ⟨j, hj⟩ := List.getElem?_of_mem he'
        obtain ⟨m, hm1, hm2⟩ := hcoll j e' hj hd
        rw [hr] at hm1; cases hm1
        have := h2.unique (fun _ => rfl) hm2
        subst this
        rw [h3] at hj; cases hj
        rw [h4] at hq; cases hq
      cases replace with
      | false =>
        refine ⟨h, ?_, hi, ?_, hlast⟩
        · unfold insert
          simp only [hk0, hr, h1, h3, Spec.result, hf]
          simp
        · simp [Spec.insert, hf]
      | true =>
        refine ⟨⟨h.entries.set i (s, x), h.root⟩, ?_, ⟨?_, ?_⟩, ?_, hlast⟩
        · unfold insert
          simp only [hk0, hr, h1, h3, Spec.result, hf]
          simp
        · intro k m hm
          apply (hi.wf k m hm).congr
          intro j e' he'
          by_cases hij : i = j
          · subst hij
            rw [h3] at he'; cases he'
            have := (List.getElem?_eq_some_iff.mp h3).1
            exact ⟨(s, x), by simp [this], fun d => (hdig d).symm⟩
          · exact ⟨e', by rw [List.getElem?_set_ne hij]; exact he', fun _ => rfl⟩
        · intro j e' he'
          simp only at he' ⊢
          by_cases hij : i = j
          · subst hij
            have := (List.getElem?_eq_some_iff.mp h3).1
            simp [this] at he'
            subst he'
            exact ⟨n, hr, h2⟩
          · rw [List.getElem?_set_ne hij] at he'
            exact hi.reach j e' he'
        · simp only [Spec.insert, hf, if_true]
          apply set_eq_map (fun e => cfg.eqv e.1 s) (s, x) h.entries i e h3 h4
          intro j e' hj hq
          exact hi.eqv_unique hl hj h3 hq h4
    · left
      rw [hst] at h1
      have hno : Spec.find cfg.eqv h.entries s = none := by
        apply find_none
        intro i e he
        cases hq : cfg.eqv e.1 s
        · rfl
        · obtain ⟨m, hm1, hm2⟩ := hi.reach_eqv hl he hq
          rw [hr] at hm1; cases hm1
          rw [(h5 i e hm2 he).1] at hq; cases hq
      refine ⟨⟨h.entries ++ [(s, x)], fun j => if j = dig cfg s 0 then some n' else h.root j⟩, ?_,
        ⟨?_, ?_⟩, ?_, ?_⟩
      · unfold insert
        simp only [hk0, hr, h1, Spec.result, hno]
      · intro k m hm
        simp only at hm
        split at hm
        · rename_i hk; cases hm; rw [hk]; exact h2
        · exact (hi.wf k m hm).append _
      · intro j e he
        simp only at he ⊢
        by_cases hj : j < h.entries.length
        · rw [List.getElem?_append_left hj] at he
          obtain ⟨m, hm1, hm2⟩ := hi.reach j e he
          by_cases hd : dig cfg e.1 0 = dig cfg s 0
          · rw [hd, hr] at hm1; cases hm1
            exact ⟨n', by rw [if_pos hd], h4 j e he hm2⟩
          · exact ⟨m, by rw [if_neg hd]; exact hm1, hm2⟩
        · have hje : j = h.entries.length := by
            have := (List.getElem?_eq_some_iff.mp he).1
            simp at this; omega
          subst hje
          simp at he
          subst he
          exact ⟨n', by simp, h3⟩
      · simp [Spec.insert, hno]
      · intro e he _ hd
        obtain ⟨j, hj⟩ := List.getElem?_of_mem he
        obtain ⟨m, hm1, hm2⟩ := hcoll j e hj hd
        rw [hr] at hm1; cases hm1
        exact (h5 j e hm2 hj).2 hd
    · right
      rw [hst] at h1
      refine ⟨?_, e, List.mem_of_getElem? h3, h4, fun d hd => h5 d (by omega)⟩
      unfold insert
      simp only [hk0, hr, h1]

/-- A key that collides with a stored, different key at every depth makes insertion run forever. -/
theorem insert_diverges {cfg : Cfg} (hl : Lawful cfg) {h : Hamt α} (hi : Inv cfg h) (fuel : Nat)
    (s : Key) (x : α) (replace : Bool) (e : Key × α) (he : e ∈ h.entries)
    (hq : cfg.eqv e.1 s = false) (hd : ∀ d, dig cfg s d = dig cfg e.1 d) :
    insert cfg fuel h s x replace = .diverged := by
  rcases insert_spec hl hi fuel s x replace with ⟨h', _, _, _, h4⟩ | ⟨h1, _⟩
  · exact absurd hd (h4 e he hq)
  · exact h1

/-- Enough fuel: insertion returns when every stored, different key differs from `s` at some depth,
    however deep. -/
theorem insert_terminates {cfg : Cfg} (hl : Lawful cfg) {h : Hamt α} (hi : Inv cfg h) (s : Key)
    (x : α) (replace : Bool)
    (hsep : ∀ e ∈ h.entries, cfg.eqv e.1 s = false → ∃ d, dig cfg s d ≠ dig cfg e.1 d) :
    ∃ fuel0, ∀ fuel, fuel0 ≤ fuel → ∃ r, insert cfg fuel h s x replace = .ok r := by
  -- a depth beyond which all different stored keys have been told apart
  have hbound : ∀ (l : List (Key × α)), (∀ e ∈ l, cfg.eqv e.1 s = false →
      ∃ d, dig cfg s d ≠ dig cfg e.1 d) →
      ∃ B, ∀ e ∈ l, cfg.eqv e.1 s = false → ∃ d, d < B ∧ dig cfg s d ≠ dig cfg e.1 d := by
    intro l
    induction l with
    | nil => intro _; exact ⟨0, by simp⟩
    | cons a l ih =>
      intro h
      obtain ⟨B, hB⟩ := ih (fun e he => h e (by simp [he]))
      cases hq : cfg.eqv a.1 s with
      | true =>
        refine ⟨B, ?_⟩
        intro e he hqe
        rcases List.mem_cons.mp he with rfl | he
        · rw [hq] at hqe; cases hqe
        · exact hB e he hqe
      | false =>
        obtain ⟨d, hd⟩ := h a (by simp) hq
        refine ⟨max B (d + 1), ?_⟩
        intro e he hqe
        rcases List.mem_cons.mp he with rfl | he
        · exact ⟨d, by omega, hd⟩
        · obtain ⟨d', h1, h2⟩ := hB e he hqe
          exact ⟨d', by omega, h2⟩
  obtain ⟨B, hB⟩ := hbound h.entries hsep
  refine ⟨B, fun fuel hf => ?_⟩
  rcases insert_spec hl hi fuel s x replace with ⟨h', h1, _⟩ | ⟨_, e, he, hq, hd⟩
  · exact ⟨_, h1⟩
  · obtain ⟨d, h1, h2⟩ := hB e he hq
    exact absurd (hd d (by omega)) h2

end Verif.Hamt
