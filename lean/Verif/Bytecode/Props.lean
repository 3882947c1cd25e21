import Verif.Bytecode.Lemmas
set_option linter.unusedSimpArgs false
/-
Properties of padding, data and emission: C28, C29, C30, C31, C46.
-/
namespace Verif.Bytecode
open Verif.Intnum (val Fits Intnum)

/-! ## C28: alignment -/

/-- C28: without a max skip, an align bytecode at `n` brings the next offset to the least multiple of its
    power-of-two boundary. -/
theorem align_minimal (k n : Nat) : LeastMultiple (2 ^ k) n (n + alignLen (2 ^ k) none n) := by
  have hp : 0 < 2 ^ k := Nat.two_pow_pos k
  have h := alignEnd_pow k n
  have : n + alignLen (2 ^ k) none n = alignEnd (2 ^ k) n := by
    unfold alignLen; rw [if_neg (by omega)]; simp only [skips, Bool.false_eq_true, if_false]; have := h.1; omega
  rw [this]; exact h

/-- C28: with a max skip, the padding is inserted in full if it does not exceed the max skip, and not at all
    otherwise. -/
theorem align_maxskip (k skip n e : Nat) (he : LeastMultiple (2 ^ k) n e) :
    alignLen (2 ^ k) (some skip) n = if e - n ≤ skip then e - n else 0 := by
  have hp : 0 < 2 ^ k := Nat.two_pow_pos k
  have h := alignEnd_pow k n
  have : alignEnd (2 ^ k) n = e :=
    Nat.le_antisymm (h.2.2 e he.1 he.2.1) (he.2.2 _ h.1 h.2.1)
  unfold alignLen
  rw [if_neg (by omega), this]
  simp only [skips, decide_eq_true_eq]
  split <;> split <;> omega

/-- C28: a boundary of 0 inserts nothing. -/
theorem align_zero (m : Option Nat) (n : Nat) : alignLen 0 m n = 0 ∧
    ∀ fill code, alignBytes ⟨0, fill, m, code⟩ n = .ok [] := ⟨rfl, fun _ _ => rfl⟩

/-- The padding is always shorter than the boundary, whatever the boundary. -/
theorem align_short (b : Nat) (m : Option Nat) (n : Nat) (hb : 0 < b) : alignLen b m n < b := by
  have h : alignEnd b n - n < b := by
    unfold alignEnd
    split
    · have : n &&& (b - 1) ≤ n := Nat.and_le_left
      omega
    · omega
  unfold alignLen
  rw [if_neg (by omega)]
  simp only
  split <;> omega

/-- C28 does not extend to other boundaries, which nothing here rejects: with boundary 3, offset 1 is left
    alone, and offset 3, already a multiple, is moved to 4. -/
theorem align_not_power_of_two :
    1 + alignLen 3 none 1 = 1 ∧ 2 + alignLen 3 none 2 = 3 ∧ 3 + alignLen 3 none 3 = 4 := by decide

example : LeastMultiple (2 ^ 4) 35 48 ∧ alignLen (2 ^ 4) none 35 = 13 ∧ alignLen (2 ^ 4) (some 12) 35 = 0 := by
  refine ⟨⟨by decide, by decide, ?_⟩, by decide, by decide⟩
  intro m h1 h2; omega

/-! ## C29: org -/

/-- C29: an org bytecode reaches its target exactly when the target is not behind it, filled with the fill
    byte; otherwise it is an error, both in layout and in emission. -/
theorem org_reaches (start fill n : Nat) :
    (n ≤ start → ∃ len, orgLen start n = .ok len ∧ n + len = start ∧
      orgBytes start fill n = .ok (List.replicate len (BitVec.ofNat 8 fill))) ∧
    (start < n → orgLen start n = .err "ORG overlap with already existing data" ∧
      orgBytes start fill n = .err "ORG overlap with already existing data") := by
  refine ⟨fun h => ⟨start - n, ?_, by omega, ?_⟩, fun h => ⟨?_, ?_⟩⟩
  · unfold orgLen; rw [if_neg (by omega)]
  · unfold orgBytes; rw [if_neg (by omega)]
  · unfold orgLen; rw [if_pos h]
  · unfold orgBytes; rw [if_pos h]

example : orgLen 0x100 0xf0 = .ok 16 ∧ orgBytes 0x12 0xAA 0x10 = .ok [0xAA, 0xAA] := by decide

/-! ## C30: emitted length equals computed length -/

/-- The tables whose every length from 1 to 15 has a pattern of that length. -/
theorem fill_tables (mode : Nat) (nop : NopStyle) (t : FillTable) (h : x86GetFill mode nop = some t) :
    FillOk t ∧ ∀ n, 0 < n → n ≤ 15 → ∃ p, t.getD n none = some p ∧ p.length = n := by
  have key : ∀ t ∈ [fill16, fill32, fill32Intel, fill32Amd],
      (∀ n : Fin 16, n.val = 0 ∨ ∃ p ∈ t.getD n.val none, p.length = n.val) ∧ t.length = 16 ∧ t.getD 0 none = none := by
    decide +kernel
  have ht : t ∈ [fill16, fill32, fill32Intel, fill32Amd] := by
    unfold x86GetFill at h
    split at h
    · simp only [Option.some.injEq] at h; subst h; simp
    split at h
    · cases nop <;> (simp only [Option.some.injEq] at h; subst h; simp)
    split at h
    · cases nop <;> (simp only [Option.some.injEq] at h; subst h; simp)
    · cases h
  obtain ⟨h1, h2, h3⟩ := key t ht
  refine ⟨?_, ?_⟩
  · intro n p hp
    by_cases hn : n < 16
    · rcases h1 ⟨n, hn⟩ with h | ⟨q, hq, hl⟩
      · simp only at h; omega
      · simp only at hq hl
        rw [hp] at hq
        simp only [Option.mem_def, Option.some.injEq] at hq
        subst hq; omega
    · rw [List.getD_eq_getElem?_getD, List.getElem?_eq_none (by omega)] at hp; simp at hp
  · intro n h0 hn
    rcases h1 ⟨n, by omega⟩ with h | ⟨q, hq, hl⟩
    · simp only at h; omega
    · exact ⟨q, hq, hl⟩

/-- C30 for align: the bytes written are as many as the layout reserved, with an explicit fill value, with
    zeros, or with the x86 code fill of any mode. -/
theorem align_emits (b : Nat) (fill maxskip : Option Nat) (code : Option FillTable) (n : Nat)
    (hc : fill ≠ none ∨ code = none ∨ ∃ mode nop, x86GetFill mode nop = code) :
    ∃ bs, alignBytes ⟨b, fill, maxskip, code⟩ n = .ok bs ∧ bs.length = alignLen b maxskip n := by
  unfold alignBytes alignLen
  simp only
  split
  · exact ⟨[], rfl, rfl⟩
  rename_i hb
  generalize alignEnd b n - n = len
  split
  · rename_i h0; subst h0
    exact ⟨[], rfl, by split <;> rfl⟩
  rename_i h0
  split
  · exact ⟨[], rfl, rfl⟩
  cases fill with
  | some v => exact ⟨_, rfl, by simp⟩
  | none =>
    cases code with
    | none => exact ⟨_, rfl, by simp⟩
    | some t =>
      rcases hc with h | h | ⟨mode, nop, h⟩
      · exact absurd rfl h
      · cases h
      · obtain ⟨h1, h2⟩ := fill_tables mode nop t h
        exact codeFill_length t h1 (fun n a b => by obtain ⟨p, hp, _⟩ := h2 n a b; rw [hp]; rfl) len (by omega)

/-- C30 fails for LC-3b code alignment to an odd distance: the padding is laid out but cannot be filled. -/
theorem align_lc3b_odd : alignLen 4 none 3 = 1 ∧
    alignBytes ⟨4, none, none, some fillLc3b⟩ 3 = .err "invalid alignment size" := by decide +kernel

example : ∃ bs, alignBytes ⟨32, none, none, some fill32Amd⟩ 1 = .ok bs ∧ bs.length = 31 := by
  obtain ⟨bs, h, hl⟩ := align_emits 32 none none (some fill32Amd) 1 (.inr (.inr ⟨32, .amd, rfl⟩))
  exact ⟨bs, h, by rw [hl]; decide⟩

/-- C30 for incbin: as long as the file does not change, exactly the computed number of bytes is read: the
    part of the file from `start`, cut at `maxlen`. -/
theorem incbin_emits (f : List Byte) (start maxlen : Option Nat) :
    ∃ len, incbinLen (some f) start maxlen = .ok len ∧
      incbinBytes (some f) start len = .ok (match maxlen with
        | some m => (f.drop (start.getD 0)).take m
        | none => f.drop (start.getD 0)) ∧
      len = (match maxlen with
        | some m => (f.drop (start.getD 0)).take m
        | none => f.drop (start.getD 0)).length := by
  refine ⟨_, rfl, ?_, ?_⟩
  · unfold incbinBytes
    simp only
    generalize start.getD 0 = s
    have e : (if s > f.length then f.length else s) = min s f.length := by
      split <;> omega
    rw [e]
    cases maxlen with
    | none =>
      simp only
      rw [if_neg (by simp only [List.length_take, List.length_drop]; omega)]
      rw [List.take_of_length_le (by simp only [List.length_drop]; omega)]
    | some m =>
      simp only
      rw [if_neg (by simp only [List.length_take, List.length_drop]; split <;> omega)]
      congr 1
      split
      · rfl
      · rw [List.take_of_length_le (by simp only [List.length_drop]; omega),
          List.take_of_length_le (by simp only [List.length_drop]; omega)]
  · generalize start.getD 0 = s
    cases maxlen with
    | none => simp only [List.length_drop]; split <;> omega
    | some m => simp only [List.length_take, List.length_drop]; split <;> split <;> omega

example : incbinLen (some [1, 2, 3, 4, 5]) (some 2) (some 2) = .ok 2 ∧
    incbinBytes (some [1, 2, 3, 4, 5]) (some 2) 2 = .ok [3, 4] := by decide

/-- C30: a bytecode whose callback writes as many bytes as its length never trips the length check: it
    comes out as `count` copies, a reserve bytecode as a gap of that size, and a zero count as nothing. -/
theorem emitted_length (f : Res (List Byte)) (b : List Byte) (hf : f = .ok b) (mult : Option Mul) (n : Int)
    (hm : bcMultiple mult = .ok n) :
    bcBytes (.bytes f) b.length mult =
      .ok (if n = 0 then .nothing else .bytes (List.replicate n.toNat b).flatten) ∧
    bcBytes .reserve b.length mult = .ok (if n = 0 then .nothing else .gap (b.length * n.toNat)) := by
  have hcop : ∀ k, copies f b.length k = .ok (List.replicate k b).flatten := by
    intro k
    induction k with
    | zero => simp [copies]
    | succ k ih =>
      unfold copies
      rw [hf] at ih ⊢
      simp only [ne_eq, not_true_eq_false, if_false, ih, Res.bind, List.replicate_succ, List.flatten_cons]
  refine ⟨?_, ?_⟩
  · unfold bcBytes
    rw [hm]
    simp only
    split
    · rfl
    · rw [hcop]; rfl
  · unfold bcBytes
    rw [hm]
    simp only
    split <;> rfl

/-- C30: and a callback that writes another number of bytes is caught. -/
theorem length_mismatch_caught (b : List Byte) (len : Nat) (h : b.length ≠ len) (mult : Option Mul) (n : Int)
    (hm : bcMultiple mult = .ok n) (hn : n ≠ 0) : bcBytes (.bytes (.ok b)) len mult = .fault := by
  unfold bcBytes
  rw [hm]
  simp only
  rw [if_neg hn]
  have hpos : 0 ≤ n := by
    unfold bcMultiple at hm
    split at hm
    · cases hm; omega
    · cases hm
    · split at hm
      · cases hm
      · cases hm; omega
  obtain ⟨k, hk⟩ : ∃ k, n.toNat = k + 1 := ⟨n.toNat - 1, by omega⟩
  rw [hk]
  unfold copies
  simp [h, Res.bind]

/-! ## C31: data directives -/

/-- C31 and C30 for data (partial): a data directive of items in range is created without touching memory it
    does not own; what it emits is the items in order, each encoded at the element size, repeated, with a NUL
    after each if asked; and the computed length is the emitted one.
    Missing: repeat counts of 0 (`zero_count_emits`), repeated empty strings (`empty_string_null`), strings in
    LEB128 directives (`leb_string_ub`), and the LEB128 range of `Verif.Intnum.leb_encode_partial`. -/
theorem data_layout_partial (env : Env) (arch : Bool) (size : Nat) (az : Bool) (dvs : List Dv)
    (hok : ∀ d ∈ dvs, DvOk env arch size d) :
    ∃ outs bs, createData size az arch dvs = .ok outs ∧
      dataBytes env (outs.map OutDv.finalize) = .ok bs ∧ dataLen env (outs.map OutDv.finalize) = .ok bs.length ∧
      Layout env arch size az dvs bs := by
  obtain ⟨sl, p', L, h1, h2, h3, h4⟩ := pass2_spec env arch size az dvs hok [] [] (Acc.nil env) [] 0 rfl
  refine ⟨p'.finish, L, ?_, by simpa using h3.1, by simpa using h3.2, h4⟩
  unfold createData
  rw [h1]
  simp only [Res.bind, h2]

/-- Both the in-buffer and the deferred path, strings that need padding, and repetition. -/
example :
    let env : Env := ⟨fun _ => none, fun _ n => some (List.replicate n 0xEE)⟩
    let dvs : List Dv := [⟨.expr .value (some (.L 0x1234)) 0, none⟩, ⟨.raw [0x61, 0x62, 0x63], some (.known 2)⟩,
      ⟨.expr .value none 1, none⟩, ⟨.reserve, none⟩]
    (∀ d ∈ dvs, DvOk env true 2 d) ∧
    (createData 2 true true dvs).bind (fun o => dataBytes env (o.map OutDv.finalize)) =
      .ok [0x34, 0x12, 0, 0x61, 0x62, 0x63, 0, 0x61, 0x62, 0x63, 0, 0, 0xEE, 0xEE, 0, 0, 0, 0] := by
  refine ⟨?_, by decide +kernel⟩
  intro d hd
  simp only [List.mem_cons, List.not_mem_nil, or_false] at hd
  rcases hd with h | h | h | h <;> subst h
  · exact ⟨.inl rfl, by simp [Verif.Intnum.Fits]⟩
  · exact ⟨.inr ⟨2, by decide, rfl⟩, by simp⟩
  · exact ⟨.inl rfl, _, rfl, by simp⟩
  · exact ⟨.inl rfl, by simp⟩

/-- C31 fails for a repeat count of 0: the item is emitted once. -/
theorem zero_count_emits :
    (createData 1 false true [⟨.expr .value (some (.L 7)) 0, some (.known 0)⟩]).bind
      (fun o => dataBytes ⟨fun _ => none, fun _ _ => none⟩ (o.map OutDv.finalize)) = .ok [7] := by decide +kernel

/-- C31 fails for a repeated empty string after other data: the second pass dereferences a null pointer. -/
theorem empty_string_null :
    createData 1 false true [⟨.expr .value (some (.L 7)) 0, none⟩, ⟨.raw [], some (.known 2)⟩] = .ub := by decide +kernel

/-- A string in a LEB128 directive is reported, and then divides by the zero element size. -/
theorem leb_string_ub :
    createLeb false [⟨.raw [0x61], none⟩] = (some "LEB128 does not allow string constants", .ub) := by decide +kernel

/-- C30 fails when a repeat count cannot be determined (which is reported): one copy is counted, none is
    emitted. -/
theorem unknown_count_mismatch :
    let outs : List OutDv := [.raw [some 7] (some .unknown)]
    dataLen ⟨fun _ => none, fun _ _ => none⟩ outs = .ok 1 ∧
      dataBytes ⟨fun _ => none, fun _ _ => none⟩ outs = .ok [] := by decide +kernel

/-! ## C46: padding in code can be executed -/

/-- C46: the padding that an align bytecode inserts into x86 code, in any mode and of any length, is a run of
    no-op instructions: execution entering it reaches exactly its end. -/
theorem code_padding_runs (mode : Nat) (nop : NopStyle) (t : FillTable) (h : x86GetFill mode nop = some t)
    (b : Nat) (maxskip : Option Nat) (n : Nat) :
    ∃ bs, alignBytes ⟨b, none, maxskip, some t⟩ n = .ok bs ∧ RunsThrough mode bs := by
  have key : ∀ x ∈ [(16, fill16), (32, fill32Intel), (32, fill32Amd), (32, fill32), (64, fill32Amd), (64, fill32Intel)],
      ∀ n : Fin 16, n.val = 0 ∨ ∃ p ∈ x.2.getD n.val none, runsThrough x.1 16 p = true := by decide +kernel
  have ht : (mode, t) ∈ [(16, fill16), (32, fill32Intel), (32, fill32Amd), (32, fill32), (64, fill32Amd), (64, fill32Intel)] := by
    unfold x86GetFill at h
    split at h
    · rename_i hm; simp only [Option.some.injEq] at h; subst h hm; simp
    split at h
    · rename_i hm; cases nop <;> (simp only [Option.some.injEq] at h; subst h hm; simp)
    split at h
    · rename_i hm; cases nop <;> (simp only [Option.some.injEq] at h; subst h hm; simp)
    · cases h
  obtain ⟨h1, h2⟩ := fill_tables mode nop t h
  have hrun : ∀ n p, 0 < n → n ≤ 15 → t.getD n none = some p → RunsThrough mode (p.take n) := by
    intro n p h0 hn hp
    rcases key _ ht ⟨n, by omega⟩ with h | ⟨q, hq, hr⟩
    · simp only at h; omega
    · simp only at hq hr
      rw [hp] at hq
      simp only [Option.mem_def, Option.some.injEq] at hq
      subst hq
      obtain ⟨q', hq', hl⟩ := h2 n h0 hn
      rw [hp] at hq'
      simp only [Option.some.injEq] at hq'
      subst hq'
      rw [List.take_of_length_le (by omega)]
      exact runsThrough_sound _ _ _ hr
  unfold alignBytes
  simp only
  split
  · exact ⟨[], rfl, .done⟩
  split
  · exact ⟨[], rfl, .done⟩
  rename_i h0
  split
  · exact ⟨[], rfl, .done⟩
  obtain ⟨k, r, p, q, he, hp, hq, _, hr0, hr, _, _⟩ :=
    codeFill_spec t h1 (fun n a b => by obtain ⟨p, hp, _⟩ := h2 n a b; rw [hp]; rfl) _ (Nat.pos_of_ne_zero h0)
  exact ⟨_, he, (RunsThrough.replicate mode k _ (hrun 15 p (by omega) (by omega) hp)).append _ _ _ (hrun r q hr0 hr hq)⟩

example : x86GetFill 64 .basic = some fill32Intel ∧ RunsThrough 64 [0x66, 0x90, 0x0f, 0x1f, 0x00] :=
  ⟨rfl, runsThrough_sound 64 5 _ (by decide)⟩

end Verif.Bytecode
