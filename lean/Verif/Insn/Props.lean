import Verif.Insn.Vex
import Verif.Insn.Short
import Verif.Insn.Jumps
import Verif.Ea.Props
import Verif.Value.Props
/-
Properties C53 to C56: instructions are as long as they were counted, jumps land on their targets, prefixes
and operands are read by the processor as they were written.
-/
set_option linter.unusedSimpArgs false
namespace Verif.Insn.Props
open Verif.Intnum Verif.Expr Verif.Value Verif.Ea

open Verif.Value.Props (Ordinary allowed_weaken set_curpos_rel_meaning equAllowed_of allowed_and allowed_syms plain_sane)

/-! ### C53: lengths -/

theorem life_counted {c : Ctx} {nequ absSym : Nat} {i j : Insn} {len : Nat} (start : Start i) (life : Life c nequ absSym i j len) :
    Counted j len := by
  induction life with
  | count hr => exact calcLen_counted start hr
  | widen span _ he ih => exact expand_counted ih he

/-- No instruction takes more than 32 bytes. -/
theorem life_short {c : Ctx} {nequ absSym : Nat} {i j : Insn} {len : Nat} (start : Start i) (life : Life c nequ absSym i j len) :
    len ≤ 32 := by
  have : Narrow j := by
    induction life with
    | count hr => exact calcLen_narrow start hr
    | widen span _ he ih => exact expand_narrow ih he
  exact this.short (life_counted start life)

/-- C53: whatever happened to an instruction before (its length was computed, it was widened any number of
    times), any number of copies of it come out without an internal error, as long as counted, with every
    output function that does its part. -/
theorem insn_length (c : Ctx) (nequ absSym : Nat) (i j : Insn) (len : Nat) (start : Start i) (life : Life c nequ absSym i j len)
    (out : OutputValue) (contract : Contract out) (safe : NoInternal out) (n pos : Nat) :
    (copies (fun i pos => insnBytes out i len pos) len n pos j).out ≠ .error .internal ∧
    ∀ r, (copies (fun i pos => insnBytes out i len pos) len n pos j).out = .ok r → r.bytes.length = n * len := by
  obtain ⟨h1, h2⟩ := copies_ok (P := fun j => Counted j len) (fun a pos e ha he => insnBytes_len contract ha he)
    (fun a pos ha => insnBytes_no_internal contract safe ha (life_short start life)) n pos j (life_counted start life)
  exact ⟨h1, fun r hr => (h2 r hr).1⟩

/-- C53: widening an instruction does not end in an internal error. -/
theorem insn_widen_safe (c : Ctx) (nequ absSym : Nat) (i j : Insn) (len : Nat) (start : Start i) (life : Life c nequ absSym i j len)
    (span : Nat) : expand j len span ≠ .error .internal :=
  expand_no_internal (life_counted start life)

/-- C53 for relative jumps. -/
theorem jmp_length (c : Ctx) (bc : At) (j : Jmp) (len : Nat) (spans : List Span) (life : LifeJmp c bc j len spans)
    (out : OutputValue) (contract : Contract out) (safe : NoInternal out) (n pos : Nat) :
    (copies (fun j pos => jmpBytes out j len pos) len n pos j).out ≠ .error .internal ∧
    ∀ r, (copies (fun j pos => jmpBytes out j len pos) len n pos j).out = .ok r → r.bytes.length = n * len := by
  obtain ⟨h1, h2⟩ := copies_ok (P := fun j => CountedJmp j len) (fun a pos e ha he => jmpBytes_len contract ha he)
    (fun a pos ha => jmpBytes_no_internal safe ha) n pos j (lifeJmp_counted life).1
  exact ⟨h1, fun r hr => (h2 r hr).1⟩

/-- C53: widening a jump for one of its spans does not end in an internal error. -/
theorem jmp_widen_safe (c : Ctx) (bc : At) (j : Jmp) (len : Nat) (spans : List Span) (life : LifeJmp c bc j len spans)
    (s : Span) (hs : s ∈ spans) : jmpExpand j len s.id ≠ .error .internal := by
  obtain ⟨h1, h2⟩ := (lifeJmp_counted life).2 s hs
  unfold jmpExpand
  rw [if_neg (by omega)]
  split
  · simp
  · rw [if_neg (by rcases h2 with h | h <;> rw [h] <;> decide)]
    simp

/-- C53 for far jumps. -/
theorem far_length (j : Jmpfar) (small : j.opcode.len ≤ 3) (out : OutputValue) (contract : Contract out) (safe : NoInternal out)
    (n pos : Nat) :
    (copies (fun j pos => jmpfarBytes out j pos) (jmpfarLen j) n pos j).out ≠ .error .internal ∧
    ∀ r, (copies (fun j pos => jmpfarBytes out j pos) (jmpfarLen j) n pos j).out = .ok r → r.bytes.length = n * jmpfarLen j := by
  obtain ⟨h1, h2⟩ := copies_ok (emit := fun j pos => jmpfarBytes out j pos) (P := fun k => k.opcode = j.opcode ∧ k.common = j.common)
    (fun a pos e ha he => by
      obtain ⟨g1, g2, g3⟩ := jmpfar_step contract (by rw [ha.1]; exact small) he
      exact ⟨g1.trans (by unfold jmpfarLen; rw [ha.1, ha.2]), g2.trans ha.1, g3.trans ha.2⟩)
    (fun a pos ha => jmpfar_safe safe (by rw [ha.1]; exact small)) n pos j ⟨rfl, rfl⟩
  exact ⟨h1, fun r hr => (h2 r hr).1⟩

/-- C53: output without relocation, and output to the flat binary format, do their part. -/
theorem outputs_do_their_part (c : Ctx) (b : BinCtx) (nequ : Nat) (bc : At) :
    (Contract (basic c nequ bc) ∧ NoInternal (basic c nequ bc)) ∧ (Contract (bin b nequ bc) ∧ NoInternal (bin b nequ bc)) :=
  ⟨⟨basic_contract c nequ bc, basic_no_internal c nequ bc⟩, bin_contract b nequ bc, bin_no_internal b nequ bc⟩

/-! ### C54: jumps -/

theorem target_fine (ρ : Env) (w : Place) (y : Syms) (base : Nat → Word) (ag : ρ.Agrees y.ctx base)
    (wrt : ∀ a b, ρ.wrt a b = a - w.frame b) (e : Node) (good : Good ρ e.item) (ops : OnlyOps Ordinary y.ctx e)
    (here : ρ.sym y.here = w.cur) (cur : ∀ s, Mentions y.ctx e s → y.isCurpos s = true → ρ.sym s = w.cur)
    (absSym : Nat) (habs : ρ.sym absSym = 0) (f : Field) (hf : (jmpTarget y absSym e).out = .ok f)
    (sound : ∀ k ∈ (jmpTarget y absSym e).log, k.Sound) :
    Fine ρ f.v ∧ (f.v.noWarn = false → meaning ρ w f.v = e.eval ρ - w.cur) := by
  unfold jmpTarget at hf sound
  obtain ⟨v, h, hf, hl⟩ := Run.bind_out hf
  rw [hl] at sound
  split at hf
  · cases hf
  rename_i hc
  simp only [Bool.or_eq_true, decide_eq_true_eq, not_or, Bool.not_eq_true, not_not] at hc
  cases hf
  have plain : OnlyOps Plain y.ctx e :=
    ⟨allowed_weaken (fun _ h => ⟨h.1, h.2.1⟩) (fun _ h => h) _ ops.1,
      fun s d hd => allowed_weaken (fun _ h => ⟨h.1, h.2.1⟩) (fun _ h => h) _ (ops.2 s d hd)⟩
  have hn : ∃ n, (simplify y.ctx y.nequ false false e).out = .ok n := by
    simp only [finalize] at h
    cases hm : (level y e).1.out with
    | error f => rw [hm] at h; cases h
    | ok n => exact ⟨n, hm⟩
  obtain ⟨n, hn⟩ := hn
  have hbp : Base Plain := ⟨by simp [Plain], by simp [Plain], by simp [Plain]⟩
  have hal := simplify_allowed hbp y.ctx (equAllowed_of plain) y.nequ false false e n
    (allowed_and _ plain.1 (fun s hs => Or.inl hs)) hn
  obtain ⟨_, m2, m3⟩ := finalize_ok ρ w y base ag here wrt 0 (by decide) e n good hn
    (plain_sane (fun _ h => h.1) (fun _ h => h.2) _ hal) (fun s hs hc => cur s (allowed_syms _ hal s hs) hc) v
    (fun k hk => sound k (List.mem_append_left _ hk)) h
  have hbo : Base Ordinary := ⟨by simp [Ordinary], by simp [Ordinary], by simp [Ordinary]⟩
  obtain ⟨_, _, k⟩ := finalize_keeps (P := Ordinary) (Q := fun _ => True) hbo y trivial (fun s d _ hd => ops.2 s d hd) 0 e ops.1
  obtain ⟨k1, k2, k3⟩ := k v h
  refine ⟨⟨m3, fun a ha => allowed_weaken (fun _ h => h.2.2) (fun _ h => h) _ (k2 a ha), k1.2, k3 (fun _ h => h.1)⟩, fun hq => ?_⟩
  show meaning ρ w (setCurposRel absSym v) = _
  rw [set_curpos_rel_meaning ρ w absSym habs v hc.2 hc.1.2 hc.1.1, m2 hq]

theorem word_sub_add (t c : Word) (a b : Nat) : c + BitVec.ofNat 256 (a * b) + BitVec.ofNat 256 b + (t - c - BitVec.ofNat 256 ((a + 1) * b)) = t := by
  rw [Nat.succ_mul, BitVec.ofNat_add]
  grind

theorem signedLE_small {d : List Byte} (h1 : 1 ≤ d.length) (h2 : d.length ≤ 8) (x : Word) (h : BitVec.ofInt 256 (signedLE d) = x) :
    Takes true d.length x.toInt := by
  obtain ⟨r1, r2⟩ := signedLE_range d (by intro h; subst h; simp at h1)
  have hp : (2 : Int) ^ (8 * d.length - 1) ≤ 2 ^ 63 := by
    exact_mod_cast Nat.pow_le_pow_right (by decide) (by omega)
  have e : x.toInt = signedLE d := by
    rw [← h, BitVec.toInt_ofInt]
    apply Int.bmod_eq_of_le
    · have : ((2 ^ 256 : Nat) : Int) / 2 = 2 ^ 255 := by norm_num
      omega
    · have : (((2 ^ 256 : Nat) : Int) + 1) / 2 = 2 ^ 255 := by norm_num
      omega
  unfold Takes
  rw [e]
  simpa using ⟨r1, r2⟩

/-- C54: every copy of a jump, short or near, goes to the target as far as the bytes of its displacement can
    say, and there is no warning if and only if every copy goes there exactly.  The target is an expression of
    ordinary operators; no mask was taken off it (`quiet`); and the output function needs no relocation. -/
theorem jumps_land_partial (ρ : Env) (w : Place) (y : Syms) (base : Nat → Word) (ag : ρ.Agrees y.ctx base)
    (wrt : ∀ a b, ρ.wrt a b = a - w.frame b) (e : Node) (good : Good ρ e.item) (ops : OnlyOps Ordinary y.ctx e)
    (here : ρ.sym y.here = w.cur) (cur : ∀ s, Mentions y.ctx e s → y.isCurpos s = true → ρ.sym s = w.cur)
    (absSym : Nat) (habs : ρ.sym absSym = 0) (f : Field) (hf : (jmpTarget y absSym e).out = .ok f)
    (sound : ∀ k ∈ (jmpTarget y absSym e).log, k.Sound) (quiet : f.v.noWarn = false)
    (bc : At) (j : Jmp) (len : Nat) (spans : List Span) (life : LifeJmp y.ctx bc j len spans) (target : j.target.v = f.v)
    (out : OutputValue) (writes : Writes out ρ w) (n pos : Nat) (r : Emitted Jmp)
    (hr : (copies (fun j pos => jmpBytes out j len pos) len n pos j).out = .ok r)
    (sound2 : ∀ k ∈ (copies (fun j pos => jmpBytes out j len pos) len n pos j).log, k.Sound) :
    (∀ k, k < n → (∃ o d, opcodeBytes (form j).1 = .ok o ∧ copy r.bytes len k = commonBytes j.common 0 ++ o ++ d ∧ d.length = (form j).2) ∧
      (jumpsTo (w.cur + BitVec.ofNat 256 (k * len)) (copy r.bytes len k) (form j).2).setWidth (8 * (form j).2) =
        (e.eval ρ).setWidth (8 * (form j).2)) ∧
    (r.warns = [] ↔ ∀ k, k < n → jumpsTo (w.cur + BitVec.ofNat 256 (k * len)) (copy r.bytes len k) (form j).2 = e.eval ρ) := by
  obtain ⟨fine, mean⟩ := target_fine ρ w y base ag wrt e good ops here cur absSym habs f hf sound
  have mean := mean quiet
  have hc := (lifeJmp_counted life).1
  have hl := counted_bound hc
  obtain ⟨n1, n2⟩ := form_pos j
  obtain ⟨c1, c2⟩ := copies_disp writes (by omega : len < 2 ^ 32) n j pos r hc (by rw [target]; exact fine) rfl rfl rfl rfl
    (show j.target.v.noWarn = false by rw [target]; exact quiet) hr sound2
  rw [target, mean] at c1 c2
  have ld : ∀ k, k < n → ∃ o d, opcodeBytes (form j).1 = .ok o ∧ copy r.bytes len k = commonBytes j.common 0 ++ o ++ d ∧ d.length = (form j).2 ∧
      (leVal d : Int) = (e.eval ρ - w.cur - BitVec.ofNat 256 ((k + 1) * len)).toInt % 2 ^ (8 * (form j).2) ∧
      jumpsTo (w.cur + BitVec.ofNat 256 (k * len)) (copy r.bytes len k) (form j).2 =
        w.cur + BitVec.ofNat 256 (k * len) + BitVec.ofNat 256 len + BitVec.ofInt 256 (signedLE d) := by
    intro k hk
    obtain ⟨o, d, ho, hb, hd, hv⟩ := c1 k hk
    refine ⟨o, d, ho, hb, hd, hv, ?_⟩
    have hlen : (copy r.bytes len k).length = len := by
      obtain ⟨o', ho', ol⟩ := opcodeBytes_len (form_len hc)
      have : Except.ok (ε := Stop) o' = .ok o := by rw [← ho]; exact ho'.symm
      cases this
      rw [hb, hc.len]
      simp only [List.length_append, ol, hd, commonBytes_len]
      simp
    unfold jumpsTo
    rw [hlen, show (copy r.bytes len k).drop (len - (form j).2) = d by
      rw [hb, List.drop_append, List.drop_eq_nil_of_le (by rw [hb] at hlen; simp only [List.length_append] at hlen ⊢; omega), List.nil_append]
      rw [hb] at hlen
      simp only [List.length_append] at hlen ⊢
      rw [show len - (form j).2 - ((commonBytes j.common 0).length + o.length) = 0 by omega]
      rfl]
  constructor
  · intro k hk
    obtain ⟨o, d, ho, hb, hd, hv, hj⟩ := ld k hk
    refine ⟨⟨o, d, ho, hb, hd⟩, ?_⟩
    rw [hj]
    have h2 := (toInt_takes hd n1 hv).2 (by omega)
    rw [BitVec.setWidth_add _ _ (by omega), h2, ← BitVec.setWidth_add _ _ (by omega), word_sub_add]
  · rw [c2]
    constructor
    · rintro (h | h)
      · cases h
      · intro k hk
        obtain ⟨o, d, ho, hb, hd, hv, hj⟩ := ld k hk
        rw [hj, (toInt_takes hd n1 hv).1 (h k hk), word_sub_add]
    · intro h
      refine Or.inr fun k hk => ?_
      obtain ⟨o, d, ho, hb, hd, hv, hj⟩ := ld k hk
      have := h k hk
      rw [hj] at this
      rw [← hd]
      apply signedLE_small (by omega) (by omega)
      have h3 := word_sub_add (e.eval ρ) w.cur k len
      grind

/-- C54: the span of a jump is the distances its short form reaches. -/
theorem short_span (c : Ctx) (bc : At) (j : Jmp) (r : Count Jmp) (h : jmpLen c bc j = .ok r)
    (s : Span) (hs : s ∈ r.spans) (z : Int) :
    s.value = r.insn.target ∧ (s.lo ≤ z ∧ z ≤ s.hi ↔ Takes true 1 (z - r.len)) := by
  unfold jmpLen at h
  extract_lets pre near short at h
  have key : ∀ t : Field, s ∈ [(⟨1, t, -128 + short, 127 + short⟩ : Span)] → s.value = t ∧ (s.lo ≤ z ∧ z ≤ s.hi ↔ Takes true 1 (z - (short : Nat))) := by
    intro t hs
    simp only [List.mem_singleton] at hs
    subst hs
    refine ⟨rfl, ?_⟩
    unfold Takes
    simp
    omega
  split at h
  · split at h
    · cases h
    · cases h; cases hs
  · split at h
    · split at h
      · cases h; cases hs
      · cases h; cases hs
    · cases h
      dsimp only at hs ⊢
      split
      · exact key _ hs
      · exact key _ hs

/-! ### C55: prefixes -/

/-- C55: every copy of an instruction with a VEX or XOP prefix has one, in two bytes or three, that says what
    the instruction asks for, followed by its opcode. -/
theorem vex_prefix (c : Ctx) (nequ absSym : Nat) (i j : Insn) (len : Nat) (life : Life c nequ absSym i j len)
    (special : i.special = 0xC4#8 ∨ i.special = 0x8F#8) (three : i.opcode.len = 3) (postop : i.postop ≠ .signextImm8)
    (rex : j.rex ≠ 0xff#8) (out : OutputValue) (n pos : Nat) (r : Emitted Insn)
    (hr : (copies (fun i pos => insnBytes out i len pos) len n pos j).out = .ok r)
    (sound : ∀ k ∈ (copies (fun i pos => insnBytes out i len pos) len n pos j).log, k.Sound) (k : Nat) (hk : k < n) :
    ∃ after tail, copy r.bytes len k = commonBytes j.common (segByte j) ++ after ∧
      decodeVex after = some (wanted i.opcode j.rex, i.opcode.b2 :: tail) := by
  obtain ⟨p, o, rest, hp, ho, hb⟩ := head_copies hr sound k hk
  refine ⟨p.1 ++ o ++ rest, rest, hb, ?_⟩
  have v := life_vex life postop
  rcases v.form with ⟨v1, v2⟩ | ⟨v1, v2, v3, v4, v5, v6⟩
  · have hsp : j.special = 0xC4#8 ∨ j.special = 0x8F#8 := by rw [v1]; exact special
    have h0 : j.special ≠ 0 := by rcases hsp with h | h <;> rw [h] <;> decide
    have : heading j = some ([j.special], mergeVex j) := by
      unfold heading prefixBytes
      dsimp only
      rw [if_pos hsp, if_pos h0]
    rw [this] at hp
    cases hp
    have hm : (mergeVex j).len = 3 ∧ (mergeVex j).b2 = i.opcode.b2 := by
      unfold mergeVex; rw [v2]; exact ⟨three, rfl⟩
    have : o = [(mergeVex j).b0, (mergeVex j).b1, (mergeVex j).b2] := by
      unfold opcodeBytes at ho
      dsimp only at ho
      rw [hm.1] at ho
      cases ho; rfl
    rw [this, hm.2]
    exact vex_three i.opcode j.rex rex j.special hsp j v2 rfl (i.opcode.b2 :: rest)
  · have hx : j.rex &&& 0x0B#8 = 0#8 := by
      rcases v6 with h | h
      · exact absurd h rex
      · exact h
    have : heading j = some ([0xC5#8], mergeVex2 j) := by
      unfold heading prefixBytes
      dsimp only
      rw [v2, if_neg (by decide), if_pos rfl, if_neg (by rw [hx]; simp), if_pos (by decide)]
    rw [this] at hp
    cases hp
    have hm : (mergeVex2 j).len = 2 ∧ (mergeVex2 j).b1 = i.opcode.b2 := by
      unfold mergeVex2; rw [v3]; exact ⟨rfl, rfl⟩
    have : o = [(mergeVex2 j).b0, (mergeVex2 j).b1] := by
      unfold opcodeBytes at ho
      dsimp only at ho
      rw [hm.1] at ho
      cases ho; rfl
    rw [this, hm.2]
    exact vex_two i.opcode j.rex rex v4 v5 hx j v3 rfl (i.opcode.b2 :: rest)

/-- C55: an instruction whose table entry asks for a VEX or XOP prefix says, in every copy, what the entry and the
    operands ask for: the map its escape bytes stand for, the extra register, the vector length, the legacy prefix
    it implies, and the bits of the REX byte; the opcode byte follows. -/
theorem vex_from_table (vexdata vexreg special : Byte) (op : Opcode) (t : Byte × Opcode) (setup : vexOpcode vexdata vexreg special op = .ok t)
    (c : Ctx) (nequ absSym : Nat) (i j : Insn) (len : Nat) (life : Life c nequ absSym i j len)
    (hs : i.special = t.1) (ho : i.opcode = t.2) (postop : i.postop ≠ .signextImm8)
    (rex : j.rex ≠ 0xff#8) (out : OutputValue) (n pos : Nat) (r : Emitted Insn)
    (hr : (copies (fun i pos => insnBytes out i len pos) len n pos j).out = .ok r)
    (sound : ∀ k ∈ (copies (fun i pos => insnBytes out i len pos) len n pos j).log, k.Sound) (k : Nat) (hk : k < n) :
    ∃ after tail, copy r.bytes len k = commonBytes j.common (segByte j) ++ after ∧
      decodeVex after = some
        (⟨j.rex.getLsbD 2, j.rex.getLsbD 1, j.rex.getLsbD 0, vexdata.getLsbD 3 || j.rex.getLsbD 3,
          (mapped (decide (vexdata &&& 0xF0#8 = 0x80#8)) op).1, vexreg.extractLsb' 0 4, vexdata.getLsbD 2,
          implied special (vexdata.extractLsb' 0 2)⟩,
        (mapped (decide (vexdata &&& 0xF0#8 = 0x80#8)) op).2 :: tail) := by
  obtain ⟨h1, h2, h3, h4⟩ := vexOpcode_says setup j.rex
  obtain ⟨after, tail, g1, g2⟩ := vex_prefix c nequ absSym i j len life (by rw [hs]; exact h1) (by rw [ho]; exact h2) postop rex out n pos r hr sound k hk
  refine ⟨after, tail, g1, ?_⟩
  rw [g2, ho, h4, h3]

/-- C55: in every copy of any other instruction the REX byte, if it has one, comes right before the opcode,
    after all other prefixes; there is none outside 64-bit mode. -/
theorem rex_prefix (j : Insn) (len : Nat) (special : j.special ≠ 0xC4#8 ∧ j.special ≠ 0x8F#8 ∧ j.special ≠ 0xC5#8)
    (out : OutputValue) (n pos : Nat) (r : Emitted Insn)
    (hr : (copies (fun i pos => insnBytes out i len pos) len n pos j).out = .ok r)
    (sound : ∀ k ∈ (copies (fun i pos => insnBytes out i len pos) len n pos j).log, k.Sound) (k : Nat) (hk : k < n) :
    ∃ o tail, opcodeBytes j.opcode = .ok o ∧
      copy r.bytes len k = commonBytes j.common (segByte j) ++ (if j.special ≠ 0 then [j.special] else []) ++
        (if j.rex ≠ 0xff#8 ∧ j.rex ≠ 0#8 then [j.rex] else []) ++ o ++ tail ∧
      (j.rex ≠ 0xff#8 ∧ j.rex ≠ 0#8 → j.common.mode = 64) := by
  obtain ⟨p, o, rest, hp, ho, hb⟩ := head_copies hr sound k hk
  obtain ⟨s1, s2, s3⟩ := special
  unfold heading prefixBytes at hp
  dsimp only at hp
  rw [if_neg (by rintro (h | h); exacts [s1 h, s2 h]), if_neg s3] at hp
  by_cases hx : j.rex ≠ 0xff#8 ∧ j.rex ≠ 0#8
  · rw [if_pos hx] at hp
    by_cases hm : j.common.mode = 64
    · rw [if_neg (by omega)] at hp
      cases hp
      exact ⟨o, rest, ho, by rw [hb, if_pos hx]; simp, fun _ => hm⟩
    · rw [if_pos hm] at hp
      cases hp
  · rw [if_neg hx] at hp
    cases hp
    exact ⟨o, rest, ho, by rw [hb, if_neg hx]; simp, fun h => absurd h hx⟩

/-! ### C56: operands -/

/-- C56: the processor reads the memory operand of every copy as the address that was written: the ModRM and
    SIB bytes choose registers that, with the displacement sign extended, add up to it; with RIP the end of
    that copy.  Missing for the full property: products of registers with expressions the assembler cannot
    reduce, operands relative to the instruction pointer if the output function forgets that they are (flat
    binary) and there is more than one copy. -/
theorem operand_bytes_partial (ρ : Env) (rf : RegFile ρ) (c : Ctx) (base : Nat → Word) (ag : ρ.Agrees c base) (nequ absSym : Nat)
    (habs : ρ.sym absSym = 0) (i : Insn) (ea : Effaddr) (ok : OperandOk ρ c nequ absSym i ea)
    (direct : ea.disp.p.curposRel = false) (noseg : ea.disp.p.segOf = false)
    (j : Insn) (len : Nat) (life : Life c nequ absSym i j len) (small : len < 2 ^ 32)
    (sound : ∀ k ∈ (calcLen c nequ absSym i).log, k.Sound)
    (w : Place) (out : OutputValue) (writes : Writes out ρ w) (stays : Stays out)
    (fine : ∀ ea', j.ea = some ea' → Fine ρ ea'.disp)
    (n pos : Nat) (once : n ≤ 1 ∨ Keeps out ∨ ∀ ea', j.ea = some ea' → ea'.ipRel = false) (r : Emitted Insn)
    (hr : (copies (fun i pos => insnBytes out i len pos) len n pos j).out = .ok r)
    (sound2 : ∀ k ∈ (copies (fun i pos => insnBytes out i len pos) len n pos j).log, k.Sound) (k : Nat) (hk : k < n)
    (rip : ρ.reg 0xD0 = w.cur + BitVec.ofNat 256 ((k + 1) * len)) :
    ∃ (l : Layout) (m : Mem) (vsib : Nat), copy r.bytes len k = l.bytes ∧
      l.Reads ρ j.common.mode j.common.addrsize vsib j.rex (meaning ρ w ea.disp) m ∧
      (r.warns = [] → m.disp ≠ 0 → (∀ ea', j.ea = some ea' → ea'.disp.noWarn = false) →
        Takes false m.disp (meaning ρ w ea.disp - m.val ρ).toInt) := by
  obtain ⟨ea', m, held⟩ := life_held ρ rf c base ag nequ absSym i ea ok life sound
  have fine := fine ea' held.has
  have once : n ≤ 1 ∨ Keeps out ∨ ea'.ipRel = false := once.imp_right (Or.imp_right fun h => h ea' held.has)
  have hz : ea'.needDisp = true → ea'.size ≠ 0 := by
    intro h h0
    have : m.disp = 0 := by rw [held.bytes, h0]
    rw [held.need.mpr this] at h
    cases h
  obtain ⟨p, o, d, im, hp, ho, hb, hd0, hd1⟩ := operand_copies writes stays small held.size held.modrm.1 hz held.has fine once hr sound2 k hk
  have hnz : m.disp ≠ 0 → ea'.needDisp = true := by
    intro h
    by_contra hn
    exact h (held.need.mp (by simpa using hn))
  -- what the displacement has to be
  have key : m.disp ≠ 0 → meaning ρ w ea'.disp - BitVec.ofNat 256 (k + 1) * back ea' len = meaning ρ w ea.disp - m.val ρ := by
    intro _
    have ha := held.address
    cases hip : ea'.ipRel with
    | false =>
      rw [hip] at ha
      simp only [back, hip, Bool.false_eq_true, if_false] at ha ⊢
      unfold meaning
      rw [held.symbol hip, ha]
      grind
    | true =>
      rw [hip] at ha
      simp only [back, hip, if_true] at ha ⊢
      have h1 := set_curpos_rel_meaning ρ w absSym habs { ea.disp with abs := ea'.disp.abs } direct ok.plain.shift noseg
      have h2 : meaning ρ w ea'.disp = meaning ρ w { ea.disp with abs := ea'.disp.abs } - w.cur := by
        rw [← h1]
        unfold meaning setCurposRel
        dsimp only
        rw [held.rip hip]
      rw [h2]
      have h3 : BitVec.ofNat 256 ((k + 1) * len) = BitVec.ofNat 256 (k + 1) * BitVec.ofNat 256 len := BitVec.ofNat_mul ..
      rw [rip, h3] at ha
      unfold meaning
      dsimp only
      rw [ha]
      grind
  have keep0 : m.disp = 0 → meaning ρ w ea.disp = m.val ρ := by
    intro h
    obtain ⟨h1, h2⟩ := held.drop h
    have ha := held.address
    have hip : ea'.ipRel = false := by
      by_contra hn
      have := held.rip (by simpa using hn)
      rw [this] at h1
      cases h1
    have hpp := held.symbol hip
    rw [h2, hip] at ha
    have hrel : ea.disp.p.rel = none := by rw [← hpp]; exact h1
    unfold meaning relVal wrtVal
    rw [hrel, ok.plain.wrt hrel, ha]
    simp
  have hsibl : (if ea'.needSib ≠ 0 then [ea'.sib] else []) = (if ea'.needSib ≠ 0 then some ea'.sib else none).toList := by
    split <;> rfl
  refine ⟨⟨commonBytes j.common (segByte j) ++ p.1 ++ o, ea'.modrm, if ea'.needSib ≠ 0 then some ea'.sib else none, d, im⟩, m, ea'.vsib, ?_, ?_, ?_⟩
  · rw [hb, hsibl]; rfl
  · have hlen : m.disp = d.length := by
      by_cases h : m.disp = 0
      · rw [hd0 (held.need.mpr h), h]; rfl
      · rw [held.bytes, (hd1 (hnz h)).1]
    refine ⟨?_, ?_, hlen, ?_, ?_, keep0⟩
    · dsimp only
      have hdec := held.decode
      by_cases hs : ea'.needSib ≠ 0
      · rw [if_pos hs]; exact hdec
      · rw [if_neg hs]
        have hms : m.sib = false := by rw [held.sib]; simpa using hs
        exact decode_nosib hdec hms _
    · rw [held.sib]
      by_cases hs : ea'.needSib ≠ 0
      · rw [if_pos hs, decide_eq_true hs]; rfl
      · rw [if_neg hs, decide_eq_false hs]; rfl
    · by_cases h : m.disp = 0
      · rw [h]
        exact BitVec.eq_of_toNat_eq (by simp only [BitVec.toNat_setWidth, Nat.mul_zero, Nat.pow_zero, Nat.mod_one])
      · obtain ⟨g1, g2, _⟩ := hd1 (hnz h)
        rw [key h] at g2
        rw [← held.bytes] at g1 g2
        exact (toInt_takes g1 (by omega) g2).2 (by
          have := held.bytes; have := held.size; unfold DispSize at this; omega)
    · intro ht
      by_cases h : m.disp = 0
      · have : d = [] := hd0 (held.need.mpr h)
        show m.val ρ + BitVec.ofInt 256 (signedLE d) = _
        rw [this, keep0 h]
        simp [signedLE, leVal]
      · obtain ⟨g1, g2, _⟩ := hd1 (hnz h)
        rw [key h] at g2
        rw [← held.bytes] at g1 g2
        have := (toInt_takes g1 (by omega) g2).1 (ht.resolve_left h)
        show m.val ρ + BitVec.ofInt 256 (signedLE d) = _
        rw [this]
        grind
  · intro hw h hn
    obtain ⟨g1, g2, g3⟩ := hd1 (hnz h)
    rw [key h, ← held.bytes] at g3
    exact (g3 hw).resolve_left (by rw [hn ea' held.has]; decide)

/-- C56: every copy of an instruction ends with its immediate: the low bytes of its value, and without a
    warning only if it fits (one byte, sign extended by the processor, where that form was chosen). -/
theorem immediate_bytes_partial (ρ : Env) (w : Place) (out : OutputValue) (writes : Writes out ρ w) (j : Insn) (imm : Field) (has : j.imm = some imm)
    (fine : Fine ρ imm.v) (b : Nat) (size : (if j.postop = .signextImm8 then 8 else imm.size) = 8 * b) (some : 1 ≤ b) (few : b ≤ 8)
    (len n pos : Nat) (r : Emitted Insn) (hr : (copies (fun i pos => insnBytes out i len pos) len n pos j).out = .ok r)
    (sound : ∀ k ∈ (copies (fun i pos => insnBytes out i len pos) len n pos j).log, k.Sound) (k : Nat) (hk : k < n) :
    ∃ front im, copy r.bytes len k = front ++ im ∧ im.length = b ∧
      (leVal im : Int) = (meaning ρ w imm.v).toInt % 2 ^ (8 * b) ∧
      (r.warns = [] → imm.v.noWarn = false → Takes (decide (j.postop = .signextImm8) || imm.sign) b (meaning ρ w imm.v).toInt) := by
  have hs : (immField j imm).size = 8 * b ∧ (immField j imm).sign = (decide (j.postop = .signextImm8) || imm.sign) := by
    unfold immField
    split
    · rename_i h
      rw [if_pos h] at size
      exact ⟨size, by simp [h]⟩
    · rename_i h
      rw [if_neg h] at size
      exact ⟨size, by simp [h]⟩
  obtain ⟨front, im, h1, h2, h3, h4⟩ := imm_copies writes has ⟨fine, b, hs.1, some, few⟩ hr sound k hk
  have hb : im.length = b := by rw [h2, hs.1]; omega
  rw [hb] at h3 h4
  rw [hs.2] at h4
  exact ⟨front, im, h1, hb, h3, fun hw hn => (h4 hw).resolve_left (by rw [hn]; decide)⟩

/-- C56 for far jumps: every copy has the offset, then the segment. -/
theorem far_bytes_partial (ρ : Env) (w : Place) (out : OutputValue) (writes : Writes out ρ w) (j : Jmpfar) (h1 : Fine ρ j.offset.v)
    (h2 : Fine ρ j.segment.v) (len n pos : Nat) (r : Emitted Jmpfar)
    (hr : (copies (fun j pos => jmpfarBytes out j pos) len n pos j).out = .ok r)
    (sound : ∀ k ∈ (copies (fun j pos => jmpfarBytes out j pos) len n pos j).log, k.Sound) (k : Nat) (hk : k < n) :
    ∃ o a s, opcodeBytes j.opcode = .ok o ∧ copy r.bytes len k = commonBytes j.common 0 ++ o ++ a ++ s ∧
      a.length = (if (if j.common.opersize = 0 then j.common.mode else j.common.opersize) = 16 then 2 else 4) ∧ s.length = 2 ∧
      (leVal a : Int) = (meaning ρ w j.offset.v).toInt % 2 ^ (8 * a.length) ∧
      (leVal s : Int) = (meaning ρ w j.segment.v).toInt % 2 ^ 16 ∧
      (r.warns = [] → (j.offset.v.noWarn = true ∨ Takes j.offset.sign a.length (meaning ρ w j.offset.v).toInt) ∧
        (j.segment.v.noWarn = true ∨ Takes j.segment.sign 2 (meaning ρ w j.segment.v).toInt)) := by
  obtain ⟨a', pos', e, hP, he, hse, hc, hw⟩ := copies_split (emit := fun j pos => jmpfarBytes out j pos) (P := fun _ k => FarAt ρ w j k)
    (fun k a pos e hP he hse => (jmpfar_value writes hP he hse).2) n 0 pos j r
    ⟨rfl, rfl, ⟨h1, rfl, rfl, rfl⟩, h2, rfl, rfl, rfl⟩ hr sound k hk
  obtain ⟨⟨o, a, s, g1, g2, g3, g4, g5, g6, g7⟩, _⟩ := jmpfar_value writes hP he hse
  refine ⟨o, a, s, g1, hc.trans g2, g3, g4, by rw [g3]; exact g5, g6, fun h => ?_⟩
  rw [g3]
  exact g7 (hw h)

/-! ### Examples -/

/-- What is looked at in the examples: the bytes and the number of warnings. -/
def seen {α : Type} (r : Run (Emitted α)) : Except Stop (List Byte × Nat) := r.out.map fun e => (e.bytes, e.warns.length)

/-- The flat binary format of the example, with the instruction at 0x30. -/
def binCtx : BinCtx := ⟨Ea.ctx, fun b => if b = 1 then .L 0x20 else if b = 2 then .L 0x30 else .L 0, fun _ => none, fun s => s == 9, .L 0x30⟩

/-- The bytes of copies of an instruction, from its start, at address 0x30 of the example; `out` says how values are written. -/
def assemble (c : Ctx) (out : OutputValue) (i : Insn) (n : Nat) : Except Stop (List Byte × Nat) :=
  match (calcLen c 0 9 i).out with
  | .error e => .error e
  | .ok r => seen (copies (fun i pos => insnBytes out i r.len pos) r.len n 0 r.insn)

/-- `mov ecx, [eax + ebx*4 + 8]` in 32-bit mode. -/
def mov : Insn := ⟨⟨0, 0, 0, 0, 32⟩, ⟨0x8B, 0, 0, 1⟩, some (operand Ea.sum), 0, none, 0, 0, .none⟩

/-- The same after its length was computed. -/
def movCounted : Insn :=
  match (calcLen Ea.ctx 0 9 mov).out with
  | .ok r => r.insn
  | .error _ => mov

/-- It starts as it should. -/
theorem mov_start : Start mov where
  mode := Or.inr (Or.inl rfl)
  addrsize := Or.inl rfl
  opcode := by decide
  word := by intro h; cases h
  ea := by intro ea h; cases h; exact Or.inl ⟨rfl, rfl, rfl, rfl⟩
  seg := Or.inl rfl
  rex := fun _ => Or.inl rfl
  special := by decide
  imm := by intro f h; cases h

theorem mov_len : (calcLen Ea.ctx 0 9 mov).out.map (fun r => r.len) = .ok 4 := by with_unfolding_all decide +kernel

theorem mov_life : Life Ea.ctx 0 9 mov movCounted 4 := by
  have h := mov_len
  unfold movCounted
  cases hr : (calcLen Ea.ctx 0 9 mov).out with
  | error e => rw [hr] at h; cases h
  | ok r =>
    rw [hr] at h
    simp only [Except.map, Except.ok.injEq] at h
    rw [← h]
    exact Life.count hr

/-- The bytes of three copies. -/
example : seen (copies (fun i pos => insnBytes (basic Ea.ctx 0 ⟨0, 0x30⟩) i 4 pos) 4 3 0 movCounted) =
    .ok ([0x8B, 0x4C, 0x98, 8, 0x8B, 0x4C, 0x98, 8, 0x8B, 0x4C, 0x98, 8], 0) := by with_unfolding_all decide +kernel

/-- The hypotheses of the operand theorem hold for it. -/
theorem mov_ok (f : Nat → Word) : OperandOk (Ea.env f) Ea.ctx 0 9 mov (operand Ea.sum) where
  mode := Or.inr (Or.inl rfl)
  size := Or.inl rfl
  has := rfl
  postop := by decide
  fresh := (Ea.operand_fresh _).1
  plain := (Ea.operand_fresh _).2
  rex := Or.inr (by decide)
  good := by
    intro e he
    have he : some Ea.sum = some e := he
    cases he
    refine ⟨Ea.sum_good f, fun r hr => ?_⟩
    · have ha : (checkea Ea.ctx 0 9 (operand Ea.sum) 0 32 false 0).out.map (fun r => r.addrsize) = .ok 32 := by
        with_unfolding_all decide +kernel
      have hr : (checkea Ea.ctx 0 9 (operand Ea.sum) 0 32 false 0).out = .ok r := hr
      rw [hr] at ha
      simp only [Except.map, Except.ok.injEq] at ha
      rw [ha]
      exact Ea.sum_written

/-- Is the computation with constants one that is sound by its operation and operands? -/
def calm (k : Call) : Bool :=
  match k.op with
  | .MUL => decide ((val k.acc * val k.operand).natAbs < 2 ^ 255)
  | .ADD | .SUB | .NEG => true
  | _ => false

theorem calm_sound {l : List Call} (h : l.all calm = true) : ∀ k ∈ l, k.Sound := by
  intro k hk
  have hc := List.all_eq_true.mp h k hk
  unfold calm at hc
  unfold Call.Sound IsDiv
  split at hc
  · rename_i ho
    rw [ho]
    exact ⟨fun _ => of_decide_eq_true hc, by simp, by simp⟩
  · rename_i ho; rw [ho]; simp
  · rename_i ho; rw [ho]; simp
  · rename_i ho; rw [ho]; simp
  · cases hc

theorem no_equs : EquAllowed NoSegoff (fun _ => True) Ea.ctx := by
  intro s d _ h
  simp [Ea.ctx] at h

/-- The address of the instruction. -/
def at0x30 : Place := ⟨0x30, fun a => a⟩

theorem mov_disp : (movCounted.ea.map fun ea => ea.disp.abs) = some (some ⟨.IDENT, [.int (.L 8)]⟩) ∧
    (movCounted.ea.map fun ea => (ea.disp.p.rel, ea.disp.p.wrt, ea.disp.p.rshift, ea.ipRel, ea.disp.noWarn)) = some (none, none, 0, false, false) := by
  with_unfolding_all decide +kernel

theorem mov_fine (f : Nat → Word) : ∀ ea, movCounted.ea = some ea → Fine (Ea.env f) ea.disp ∧ ea.ipRel = false := by
  intro ea h
  obtain ⟨h1, h2⟩ := mov_disp
  rw [h] at h1 h2
  simp only [Option.map_some, Option.some.injEq, Prod.mk.injEq] at h1 h2
  refine ⟨⟨?_, ?_, by omega, h2.2.1⟩, h2.2.2.2.1⟩
  · intro e he
    rw [h1] at he
    cases he
    exact ident_int_good _ _ (by unfold Fits; decide)
  · intro e he
    rw [h1] at he
    cases he
    simp [Node.item, Allowed, AllowedL, NoSegoff]

/-- The theorem applies to the three copies of `mov`. -/
example (f : Nat → Word) (k : Nat) (hk : k < 3) (hf : f 0xD0 = 0x30 + BitVec.ofNat 256 ((k + 1) * 4)) : ∃ (l : Layout) (m : Mem) (vsib : Nat) (r : Emitted Insn),
    (copies (fun i pos => insnBytes (basic Ea.ctx 0 ⟨0, 0x30⟩) i 4 pos) 4 3 0 movCounted).out = .ok r ∧
    copy r.bytes 4 k = l.bytes ∧ l.Reads (Ea.env f) movCounted.common.mode movCounted.common.addrsize vsib movCounted.rex
      (Ea.sum.eval (Ea.env f)) m := by
  have ok : (copies (fun i pos => insnBytes (basic Ea.ctx 0 ⟨0, 0x30⟩) i 4 pos) 4 3 0 movCounted).out.isOk = true := by
    with_unfolding_all decide +kernel
  cases hr : (copies (fun i pos => insnBytes (basic Ea.ctx 0 ⟨0, 0x30⟩) i 4 pos) 4 3 0 movCounted).out with
  | error e => rw [hr] at ok; cases ok
  | ok r =>
    obtain ⟨l, m, vsib, h1, h2, _⟩ := operand_bytes_partial (Ea.env f) (Ea.env_regs f) Ea.ctx (fun _ => 0) (Ea.env_agrees f) 0 9
      (by simp [Ea.env]) mov (operand Ea.sum) (mov_ok f) rfl rfl movCounted 4 mov_life (by decide)
      (calm_sound (by with_unfolding_all decide +kernel)) at0x30 _
      (basic_writes (Ea.env f) Ea.ctx (fun _ => 0) (Ea.env_agrees f) no_equs at0x30 0 ⟨0, 0x30⟩ (by simp [at0x30, At.addr]) (by decide))
      (fun f n pos r h hf => (basic_keeps _ _ _ f n pos r h).trans hf) (fun ea h => (mov_fine f ea h).1) 3 0 (Or.inr (Or.inl (basic_keeps _ _ _))) r hr
      (calm_sound (by with_unfolding_all decide +kernel)) k hk (by simp only [Ea.env, at0x30]; simpa using hf)
    refine ⟨l, m, vsib, r, rfl, h1, ?_⟩
    have : meaning (Ea.env f) at0x30 (operand Ea.sum).disp = Ea.sum.eval (Ea.env f) := by
      simp [meaning, operand, absVal, relVal, wrtVal]
    rw [← this]
    exact h2

/-- The length theorem applies to it. -/
example (n : Nat) : (copies (fun i pos => insnBytes (basic Ea.ctx 0 ⟨0, 0x30⟩) i 4 pos) 4 n 0 movCounted).out ≠ .error .internal :=
  (insn_length Ea.ctx 0 9 mov movCounted 4 mov_start mov_life _ (outputs_do_their_part Ea.ctx binCtx 0 ⟨0, 0x30⟩).1.1
    (outputs_do_their_part Ea.ctx binCtx 0 ⟨0, 0x30⟩).1.2 n 0).1

/-- The expression `s1 + 3`, a target at 0x1013. -/
def target : Node := ⟨.ADD, [.sym 1, .int (.L 3)]⟩

/-- It as the value of a jump. -/
def targetField : Field :=
  match (jmpTarget Value.Props.symbols 99 target).out with
  | .ok f => f
  | .error _ => ⟨⟨none, ⟨none, none, false, 0, false⟩, false⟩, 0, false, false⟩

/-- `jmp s1 + 3` in 32-bit mode, at 0x1030. -/
def jmp : Jmp := ⟨⟨0, 0, 0, 0, 32⟩, ⟨0xEB, 0, 0, 1⟩, ⟨0xE9, 0, 0, 1⟩, .none, targetField⟩

/-- Its short form, and the near form it would be widened to. -/
def jmpShort : Jmp := { jmp with sel := .short }
def jmpNear : Jmp := { jmp with sel := .near }

theorem target_ok : (jmpTarget Value.Props.symbols 99 target).out = .ok targetField := by
  have : (jmpTarget Value.Props.symbols 99 target).out.isOk = true := by with_unfolding_all decide +kernel
  unfold targetField
  cases h : (jmpTarget Value.Props.symbols 99 target).out with
  | error e => rw [h] at this; cases this
  | ok f => rfl

theorem jmp_start : StartJmp jmp := ⟨by decide, by decide, Or.inl rfl⟩

theorem jmp_count : ∃ spans, jmpLen Value.Props.ctx Value.Props.at30 jmp = .ok ⟨jmpShort, 2, spans⟩ ∧ spans = [⟨1, targetField, -126, 129⟩] := by
  have : farAway Value.Props.ctx Value.Props.at30 targetField = false := by with_unfolding_all decide +kernel
  have hl : commonLen jmp.common = 0 := by decide
  refine ⟨_, ?_, rfl⟩
  unfold jmpLen
  rw [hl]
  simp [jmp, jmpShort, this]

theorem short_life : LifeJmp Value.Props.ctx Value.Props.at30 jmpShort 2 [⟨1, targetField, -126, 129⟩] := by
  obtain ⟨s, h1, rfl⟩ := jmp_count
  exact LifeJmp.count jmp_start h1

theorem near_life : LifeJmp Value.Props.ctx Value.Props.at30 jmpNear 5 [] :=
  LifeJmp.widen ⟨1, targetField, -126, 129⟩ short_life (by simp) (by rfl)

/-- Two copies of the short form, and of the near form. -/
example : seen (copies (fun j pos => jmpBytes (basic Value.Props.ctx 2 Value.Props.at30) j 2 pos) 2 2 0 jmpShort) = .ok ([0xEB, 0xE1, 0xEB, 0xDF], 0) ∧
    seen (copies (fun j pos => jmpBytes (basic Value.Props.ctx 2 Value.Props.at30) j 5 pos) 5 2 0 jmpNear) =
      .ok ([0xE9, 0xDE, 0xFF, 0xFF, 0xFF, 0xE9, 0xD9, 0xFF, 0xFF, 0xFF], 0) := by
  with_unfolding_all decide +kernel

theorem target_good (x z : Word) : Good (Value.Props.env x z) target.item := by
  simp only [target, Node.item, Good, GoodL, Arity, Fits, reduceCtorEq, or_self, false_implies, and_true, true_and,
    List.length_cons, List.length_nil]
  decide

theorem target_ops : OnlyOps Ordinary Value.Props.ctx target :=
  ⟨⟨⟨by simp [target], by simp [target], by simp [target]⟩, trivial, trivial, trivial⟩,
    Value.Props.ctx_ops _ ⟨⟨by simp, by simp, by simp⟩, ⟨by simp, by simp, by simp⟩⟩⟩

theorem target_cur (x z : Word) (s : Nat) (h : Mentions Value.Props.ctx target s) (hc : Value.Props.symbols.isCurpos s = true) :
    (Value.Props.env x z).sym s = Value.Props.place.cur := by
  have key : ∀ r, r ∈ syms target.item → r = 1 := by
    intro r hr
    simpa [target, Node.item, syms, symsL] using hr
  rcases h with h | ⟨r, hr, hrs⟩
  · rw [key s h] at hc; exact absurd hc (by decide)
  · rcases Value.Props.ctx_reaches hrs (by rw [key r hr]; decide) with h | h <;> rw [h] at hc <;> exact absurd hc (by decide)

/-- The jump theorem applies to two copies of either form: both go to 0x1013, and so there is no warning. -/
example (x z : Word) (j : Jmp) (len : Nat) (hj : (j, len) = (jmpShort, 2) ∨ (j, len) = (jmpNear, 5)) : ∃ r : Emitted Jmp,
    (copies (fun j pos => jmpBytes (basic Value.Props.ctx 2 Value.Props.at30) j len pos) len 2 0 j).out = .ok r ∧
    (r.warns = [] ↔ ∀ k, k < 2 → jumpsTo (Value.Props.place.cur + BitVec.ofNat 256 (k * len)) (copy r.bytes len k) (form j).2 = target.eval (Value.Props.env x z)) := by
  have ho : (copies (fun j pos => jmpBytes (basic Value.Props.ctx 2 Value.Props.at30) j len pos) len 2 0 j).out.isOk = true := by
    rcases hj with h | h <;> cases h <;> with_unfolding_all decide +kernel
  have hl : (copies (fun j pos => jmpBytes (basic Value.Props.ctx 2 Value.Props.at30) j len pos) len 2 0 j).log.all calm = true := by
    rcases hj with h | h <;> cases h <;> with_unfolding_all decide +kernel
  have life : ∃ spans, LifeJmp Value.Props.ctx Value.Props.at30 j len spans := by
    rcases hj with h | h <;> cases h
    exacts [⟨_, short_life⟩, ⟨_, near_life⟩]
  have ht : j.target.v = targetField.v := by
    rcases hj with h | h <;> cases h <;> rfl
  obtain ⟨spans, life⟩ := life
  cases hr : (copies (fun j pos => jmpBytes (basic Value.Props.ctx 2 Value.Props.at30) j len pos) len 2 0 j).out with
  | error e => rw [hr] at ho; cases ho
  | ok r =>
    refine ⟨r, rfl, (jumps_land_partial (Value.Props.env x z) Value.Props.place Value.Props.symbols Value.Props.bases (Value.Props.env_agrees x z)
      (fun _ _ => rfl) target (target_good x z) target_ops rfl (target_cur x z) 99 rfl targetField target_ok
      (calm_sound (by with_unfolding_all decide +kernel)) (by with_unfolding_all decide +kernel) Value.Props.at30 j len spans life ht _
      (basic_writes _ Value.Props.ctx Value.Props.bases (Value.Props.env_agrees x z)
        (fun s d _ h => Value.Props.ctx_ops NoSegoff ⟨by simp [NoSegoff], by simp [NoSegoff]⟩ s d h) _ 2 _ (by simp [Value.Props.place, At.addr, Value.Props.at30, Value.Props.bases])
        (by decide)) 2 0 r hr (calm_sound hl)).2⟩

/-- A register for an operand, by its ModRM byte. -/
def register (modrm : Byte) : Effaddr :=
  { operand Ea.sum with
    disp := ⟨none, ⟨none, none, false, 0, false⟩, false⟩, modrm := modrm, needModrm := true, validModrm := true, needSib := 0, needDisp := false }

/-- `vaddps xmm1, xmm2, xmm3` in 64-bit mode: the table gives 0F 58 and VEX data 0xC0; the two-byte prefix does. -/
def vaddps (rex : Byte) : Insn :=
  match vexOpcode 0xC0 2 0 ⟨0x0F, 0x58, 0, 2⟩ with
  | .ok t => ⟨⟨0, 0, 0, 0, 64⟩, t.2, some (register 0xCB), 0, none, t.1, rex, .none⟩
  | .error _ => mov

/-- With a register the prefix in two bytes cannot name (`xmm11` for `xmm3`) it takes three. -/
example : assemble Ea.ctx (basic Ea.ctx 0 ⟨0, 0x30⟩) (vaddps 0) 2 = .ok ([0xC5, 0xE8, 0x58, 0xCB, 0xC5, 0xE8, 0x58, 0xCB], 0) ∧
    assemble Ea.ctx (basic Ea.ctx 0 ⟨0, 0x30⟩) (vaddps 0x41) 2 =
      .ok ([0xC4, 0xC1, 0x68, 0x58, 0xCB, 0xC4, 0xC1, 0x68, 0x58, 0xCB], 0) := by
  with_unfolding_all decide +kernel

/-- Both say the same but for that register. -/
example : decodeVex [0xC5, 0xE8, 0x58, 0xCB] = some (⟨false, false, false, false, 1, 2, false, 0⟩, [0x58, 0xCB]) ∧
    decodeVex [0xC4, 0xC1, 0x68, 0x58, 0xCB] = some (⟨false, false, true, false, 1, 2, false, 0⟩, [0x58, 0xCB]) := by
  decide +kernel

/-- The set-up that theorem `vex_from_table` asks for, for an instruction with escape bytes, for one with an operand
    size prefix, and for XOP. -/
example : vexOpcode 0xC4 2 0 ⟨0x0F, 0x38, 0x2D, 3⟩ = .ok (0xC4, ⟨0xE2, 0x6C, 0x2D, 3⟩) ∧
    vexOpcode 0xC0 2 0x66 ⟨0x0F, 0x58, 0, 2⟩ = .ok (0xC4, ⟨0xE1, 0x69, 0x58, 3⟩) ∧
    vexOpcode 0x80 2 0 ⟨0x08, 0xA2, 0, 2⟩ = .ok (0x8F, ⟨0xE8, 0x68, 0xA2, 3⟩) := ⟨rfl, rfl, rfl⟩

/-- `add rbx, 5` in 64-bit mode: the sign-extended byte. -/
def addImm (v : BitVec 64) : Insn :=
  { mov with
    common := ⟨0, 0, 0, 0, 64⟩, opcode := ⟨0x83, 0x81, 0, 1⟩, rex := 0x48, postop := .signextImm8,
    ea := some (register 0xC3),
    imm := some ⟨⟨some ⟨.IDENT, [.int (.L v)]⟩, ⟨none, none, false, 0, false⟩, false⟩, 32, true, false⟩ }

/-- A number that does not fit in a byte gets the other form. -/
example : assemble Ea.ctx (basic Ea.ctx 0 ⟨0, 0x30⟩) (addImm 5) 2 = .ok ([0x48, 0x83, 0xC3, 5, 0x48, 0x83, 0xC3, 5], 0) ∧
    assemble Ea.ctx (basic Ea.ctx 0 ⟨0, 0x30⟩) (addImm 0x85) 1 = .ok ([0x48, 0x81, 0xC3, 0x85, 0, 0, 0], 0) := by
  with_unfolding_all decide +kernel

/-- `jmp 0x10:0x1234` in 16-bit mode, and what becomes of an offset that does not fit: a warning. -/
def farJmp (off : BitVec 64) : Jmpfar :=
  ⟨⟨0, 0, 0, 0, 16⟩, ⟨0xEA, 0, 0, 1⟩, ⟨⟨some ⟨.IDENT, [.int (.L 0x10)]⟩, ⟨none, none, false, 0, false⟩, false⟩, 16, false, false⟩,
    ⟨⟨some ⟨.IDENT, [.int (.L off)]⟩, ⟨none, none, false, 0, false⟩, false⟩, 0, false, false⟩⟩

example : seen (copies (fun j pos => jmpfarBytes (basic Ea.ctx 0 ⟨0, 0x30⟩) j pos) (jmpfarLen (farJmp 0x1234)) 2 0 (farJmp 0x1234)) =
      .ok ([0xEA, 0x34, 0x12, 0x10, 0, 0xEA, 0x34, 0x12, 0x10, 0], 0) ∧
    seen (copies (fun j pos => jmpfarBytes (basic Ea.ctx 0 ⟨0, 0x30⟩) j pos) (jmpfarLen (farJmp 0x12345)) 1 0 (farJmp 0x12345)) =
      .ok ([0xEA, 0x45, 0x23, 0x10, 0], 1) := by
  with_unfolding_all decide +kernel

/-- The values of the far jump and of the immediate are ones the theorems are about. -/
example (f : Nat → Word) (v : BitVec 64) (hv : Fits (.L v)) : Fine (Ea.env f) (farJmp v).offset.v ∧ Fine (Ea.env f) (farJmp v).segment.v ∧
    ∀ imm, (addImm v).imm = some imm → Fine (Ea.env f) imm.v ∧ (if (addImm v).postop = .signextImm8 then 8 else imm.size) = 8 * 1 := by
  have key : ∀ v : BitVec 64, Fits (.L v) → Fine (Ea.env f) ⟨some ⟨.IDENT, [.int (.L v)]⟩, ⟨none, none, false, 0, false⟩, false⟩ := by
    intro v hv
    refine ⟨?_, ?_, Nat.zero_le _, rfl⟩
    · intro e he
      cases he
      exact ident_int_good _ _ hv
    · intro e he
      cases he
      simp [Node.item, Allowed, AllowedL, NoSegoff]
  refine ⟨key v hv, key 0x10 (by unfold Fits; decide), ?_⟩
  intro imm h
  cases h
  exact ⟨key v hv, rfl⟩

/-! ### Where C56 fails -/

/-- `mov ecx, [byte ebx + 200]` in 32-bit mode: the displacement is written as the byte 0xC8, which the processor
    reads as -56, without a warning. -/
def byteDisp : Insn :=
  { mov with ea := some { operand ⟨.ADD, [.reg 0x43, .int (.L 200)]⟩ with size := 8 } }

theorem byte_disp_wraps : assemble Ea.ctx (basic Ea.ctx 0 ⟨0, 0x30⟩) byteDisp 1 = .ok ([0x8B, 0x4B, 0xC8], 0) ∧
    signedLE [0xC8#8] = -56 := by
  with_unfolding_all decide +kernel

/-- `mov ecx, [rbx + 0x80000000]` in 64-bit mode: four bytes of displacement, which the processor reads as
    -0x80000000, without a warning. -/
def highDisp : Insn :=
  { mov with common := ⟨0, 0, 0, 0, 64⟩, ea := some (operand ⟨.ADD, [.reg 0x53, .int (.L 0x80000000)]⟩) }

theorem high_disp_wraps : assemble Ea.ctx (basic Ea.ctx 0 ⟨0, 0x30⟩) highDisp 1 = .ok ([0x8B, 0x8B, 0, 0, 0, 0x80], 0) ∧
    signedLE [0#8, 0, 0, 0x80] = -0x80000000 := by
  with_unfolding_all decide +kernel

/-- `mov ecx, [rel foo]` in 64-bit mode, where `foo` is at 0x20. -/
def relInsn : Insn :=
  { mov with common := ⟨0, 0, 0, 0, 64⟩,
             ea := some { operand Ea.sum with disp := ⟨none, ⟨some 1, none, false, 0, false⟩, false⟩, pcRel := true } }

/-- Two copies at 0x30, six bytes each.  Without relocation each reads from 0x20; in the flat binary format the
    second reads from 0x26. -/
theorem bin_times_rel_wrong : assemble Ea.ctx (basic Ea.ctx 0 ⟨0, 0x30⟩) relInsn 2 =
      .ok ([0x8B, 0x0D, 0xEA, 0xFF, 0xFF, 0xFF, 0x8B, 0x0D, 0xE4, 0xFF, 0xFF, 0xFF], 0) ∧
    assemble Ea.ctx (bin binCtx 0 ⟨0, 0x30⟩) relInsn 2 =
      .ok ([0x8B, 0x0D, 0xEA, 0xFF, 0xFF, 0xFF, 0x8B, 0x0D, 0xEA, 0xFF, 0xFF, 0xFF], 0) ∧
    0x36 + signedLE [0xEA#8, 0xFF, 0xFF, 0xFF] = 0x20 ∧ 0x3C + signedLE [0xE4#8, 0xFF, 0xFF, 0xFF] = 0x20 ∧
    0x3C + signedLE [0xEA#8, 0xFF, 0xFF, 0xFF] = 0x26 := by
  with_unfolding_all decide +kernel

/-- `dd foo wrt bar` in the flat binary format: the WRT is silently ignored. -/
theorem bin_ignores_wrt : ((bin binCtx 0 ⟨0, 0x30⟩ ⟨⟨none, ⟨some 1, some 2, false, 0, false⟩, false⟩, 32, false, false⟩ 4 0).out.map fun r => r.bytes) =
      .ok [0x20, 0, 0, 0] ∧
    meaning (Ea.env fun _ => 0) at0x30 ⟨none, ⟨some 1, some 2, false, 0, false⟩, false⟩ = -0x10 := by
  refine ⟨by with_unfolding_all decide +kernel, ?_⟩
  simp [meaning, absVal, relVal, wrtVal, Ea.env, at0x30]

end Verif.Insn.Props
