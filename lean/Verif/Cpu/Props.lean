/-
C72: the CPU and BITS directives.
-/
import Verif.Cpu.Lemmas
import Verif.Match.NameProps

namespace Verif.Cpu

open Verif.Intnum
open Verif.Bytecode (NopStyle)
open Verif.Match (Parser Setting lower Keyword keywords names groups RawInsn Named)

/-! ### C72: what is enabled -/

/-- C72: after any number of directives, a feature is enabled if and only if the last of the words given to CPU which said something about it
    enabled it; if there was none, it is enabled. -/
theorem cpu_exact {amd64 : Bool} {addressSize : Nat} {p : Parser} {ds : List Step} {t : State} (h : run (create amd64 addressSize p) ds = some t)
    {k : Nat} (hk : k < 64) : t.setting.cpu k = (lastWord (Act.says k) (known (ds.flatMap Step.said))).getD true := by
  have := (run_did (create_tidy _ _ _) h).features k hk
  show t.current.getLsbD k = _
  rw [this]
  have : (create amd64 addressSize p).current.getLsbD k = true := by
    show (BitVec.allOnes 64).getLsbD k = true
    rw [BitVec.getLsbD_allOnes]
    exact decide_eq_true hk
  rw [this]

/-- C72: and the padding is that of the last word which said something about it. -/
theorem padding_exact {amd64 : Bool} {addressSize : Nat} {p : Parser} {ds : List Step} {t : State} (h : run (create amd64 addressSize p) ds = some t) :
    t.nop = (lastWord Act.pads (known (ds.flatMap Step.said))).getD .basic :=
  (run_did (create_tidy _ _ _) h).padding

/-- C72: a word is known exactly if it is in the table, in capital or small letters, and then it is that of one entry. -/
theorem known_iff (w : List Char) (a : Act) : known [w] = [a] ↔ Stands w a := by
  unfold known Stands
  constructor
  · intro h
    cases hf : cpuWords.find? fun e => e.1.toList = w.map lower with
    | none => rw [List.filterMap_cons_none (by rw [hf]; rfl)] at h; cases h
    | some e =>
      rw [List.filterMap_cons_some (by rw [hf]; rfl)] at h
      injection h with h _
      refine ⟨e.1, ?_, (of_decide_eq_true (List.find?_some (p := fun e : String × Act => decide (e.1.toList = w.map lower)) hf)).symm⟩
      rw [← h]
      exact List.mem_of_find?_eq_some hf
  · rintro ⟨name, hm, hn⟩
    cases hf : cpuWords.find? fun e => e.1.toList = w.map lower with
    | none =>
      rw [List.find?_eq_none] at hf
      exact absurd (decide_eq_true hn.symm) (hf _ hm)
    | some e =>
      have h1 := of_decide_eq_true (List.find?_some (p := fun e : String × Act => decide (e.1.toList = w.map lower)) hf)
      have h2 := List.inj_on_of_nodup_map words_distinct (List.mem_of_find?_eq_some hf) hm (h1.trans hn)
      rw [List.filterMap_cons_some (by rw [hf]; rfl), h2]
      rfl

/-- C72: nothing takes the 8086 away: this is what C71 needs. -/
theorem base_enabled {amd64 : Bool} {addressSize : Nat} {p : Parser} {ds : List Step} {t : State} (h : run (create amd64 addressSize p) ds = some t) :
    t.setting.cpu 0 = true :=
  current_base (run_did (create_tidy _ _ _) h).tidy

/-- C72: a later Intel processor has all of what an earlier one has, and so for those of AMD. -/
theorem later_has_more {m n k : Nat} (h : m ≤ n) :
    (upTo intelNews m k = true → upTo intelNews n k = true) ∧ (upTo amdNews m k = true → upTo amdNews n k = true) := by
  have main : ∀ news : List (List Nat), upTo news m k = true → upTo news n k = true := by
    intro news h1
    unfold upTo at *
    rw [List.any_eq_true] at *
    obtain ⟨l, hl, h2⟩ := h1
    exact ⟨l, List.IsPrefix.subset (List.take_prefix_take_left (by omega)) hl, h2⟩
  exact ⟨main _, main _⟩

/-! ### C72: what an instruction has noted stays -/

/-- C72: whatever directives come later, where there was a set of features for an earlier instruction there still is the same set. -/
theorem settings_kept {amd64 : Bool} {addressSize : Nat} {p : Parser} {before after : List Step} {s t : State}
    (h1 : run (create amd64 addressSize p) before = some s) (h2 : run s after = some t) :
    s.enables[s.active]? = some s.current ∧ (∀ (i : Nat) (v : Enables), s.enables[i]? = some v → t.enables[i]? = some v) ∧ t.enables.Nodup := by
  have hs := (run_did (create_tidy _ _ _) h1).tidy
  have ht := run_did hs h2
  refine ⟨?_, fun i v h => ?_, ht.tidy.distinct⟩
  · unfold State.current
    rw [List.getD_eq_getElem?_getD, List.getElem?_eq_getElem hs.active, Option.getD_some]
  · obtain ⟨l, hl⟩ := ht.keeps
    rw [← hl, List.getElem?_append_left (List.getElem?_eq_some_iff.1 h).1]
    exact h

/-! ### C72: without CPU nothing is refused -/

/-- C72: if no known word was given to CPU, no instruction is refused for its processor, and no form of one. -/
theorem all_enabled {amd64 : Bool} {addressSize : Nat} {p : Parser} {ds : List Step} {t : State} (h : run (create amd64 addressSize p) ds = some t)
    (none : known (ds.flatMap Step.said) = []) {n : RawInsn} (hn : n ∈ names) {k : Keyword}
    (hk : k ∈ keywords t.setting.parser.dialect n (groups.getD n.group [])) :
    (∀ l, k.check t.setting ≠ .needsCpu l) ∧ ∀ f ∈ (k.insn t.setting).group, ∀ j ∈ f.cpu, t.setting.cpu j = true := by
  have all : ∀ j < 64, t.setting.cpu j = true := by
    intro j hj
    rw [cpu_exact h hj, none]
    rfl
  have hc := Match.names_checked n hn
  unfold Match.nameChecked at hc
  simp only [Bool.and_eq_true, List.all_eq_true, decide_eq_true_eq] at hc
  obtain ⟨⟨⟨made, _⟩, _⟩, h2⟩ := hc
  have hcpu := (h2 t.setting.parser.dialect (by cases t.setting.parser.dialect <;> simp) k hk).2
  refine ⟨fun l hl => ?_, fun f hf j hj => ?_⟩
  · have hall : ((k.cpu ++ [0, 0, 0]).take 3).all t.setting.cpu = true := by
      rw [List.all_eq_true]
      intro j hj
      rcases List.mem_append.1 (List.mem_of_mem_take hj) with hj | hj
      · exact all j (hcpu j hj)
      · simp only [List.mem_cons, List.not_mem_nil, or_false, or_self] at hj
        rw [hj]
        exact all 0 (by omega)
    unfold Keyword.check at hl
    rw [hall] at hl
    split at hl
    · cases hl
    · split at hl <;> cases hl
  · obtain ⟨hg, _⟩ := Match.entry_of hk
    have hgroup : (k.insn t.setting).group = (groups.getD n.group []).filterMap Match.RawForm.form := by
      show k.group.filterMap _ = _
      rw [hg]
    rw [hgroup] at hf
    obtain ⟨r, hr, e⟩ := List.mem_filterMap.1 hf
    obtain ⟨_, _, _, _, _, e1, _⟩ := Match.form_of e
    rw [e1] at hj
    rcases List.mem_append.1 (List.mem_of_mem_take hj) with hj | hj
    · exact all j ((made r hr).2 j hj)
    · simp only [List.mem_cons, List.not_mem_nil, or_false, or_self] at hj
      rw [hj]
      exact all 0 (by omega)

/-! ### C72: words that are not known -/

theorem known_length {w : List Char} {a : Act} (h : Stands w a) : w.length ≤ 15 := by
  obtain ⟨name, hm, hn⟩ := h
  have := words_short _ hm
  dsimp only at this
  rw [← hn, List.length_map] at this
  exact this

theorem activate_unknown (s : State) (v : Enables) : (s.activate v).unknown = s.unknown := by
  unfold State.activate
  split <;> rfl

/-- C72, in part: a word of up to 15 characters is reported exactly if it is not known, and then changes nothing else.  What is missing: longer words; see
    `long_word_ignored`. -/
theorem unknown_reported_partial (s : State) (w : List Char) (short : w.length ≤ 15) :
    ((∃ a, Stands w a) → (parseCpu s w).unknown = s.unknown) ∧
    ((¬ ∃ a, Stands w a) → parseCpu s w = { s with unknown := s.unknown ++ [w] }) := by
  unfold parseCpu
  rw [if_neg (by omega)]
  constructor
  · rintro ⟨a, name, hm, hn⟩
    split
    · next hf =>
      rw [List.find?_eq_none] at hf
      exact absurd (decide_eq_true hn.symm) (hf _ hm)
    · exact activate_unknown _ _
  · intro h
    split
    · rfl
    · next e hf =>
      exact absurd ⟨e.2, e.1, List.mem_of_find?_eq_some hf,
        (of_decide_eq_true (List.find?_some (p := fun e : String × Act => decide (e.1.toList = w.map lower)) hf)).symm⟩ h

/-- C72 fails for a word of more than 15 characters: whatever it is, it is not known and there is no report of it. -/
theorem long_word_ignored (s : State) (w : List Char) (long : w.length > 15) : (¬ ∃ a, Stands w a) ∧ parseCpu s w = s := by
  refine ⟨fun ⟨a, h⟩ => ?_, ?_⟩
  · have := known_length h
    omega
  · unfold parseCpu
    rw [if_pos long]

/-! ### C72: numbers -/

theorem digits_length (fuel n m : Nat) (h : n < 10 ^ m) (hm : 0 < m) : (digits fuel n).length ≤ m := by
  induction fuel generalizing n m with
  | zero => simp [digits]
  | succ fuel ih =>
    unfold digits
    split
    · simp; omega
    · next hn =>
      obtain ⟨m, rfl⟩ : ∃ m', m = m' + 1 := ⟨m - 1, by omega⟩
      have hm' : 0 < m := by
        rcases Nat.eq_zero_or_pos m with h0 | h0
        · subst h0; omega
        · exact h0
      have := ih (n / 10) m (by rw [Nat.div_lt_iff_lt_mul (by omega), ← Nat.pow_succ]; exact h) hm'
      rw [List.length_append, List.length_singleton]
      omega

/-- The number written by some digits. -/
def written (l : List Char) : Nat := l.foldl (fun n c => 10 * n + (c.toNat - 48)) 0

theorem digit_char (d : Nat) (h : d < 10) : (Char.ofNat (48 + d)).toNat = 48 + d := by
  have : ∀ d : Fin 10, (Char.ofNat (48 + d.val)).toNat = 48 + d.val := by decide
  exact this ⟨d, h⟩

theorem written_digits (fuel n : Nat) (h : n < 10 ^ fuel) : written (digits fuel n) = n := by
  induction fuel generalizing n with
  | zero => simp only [Nat.pow_zero] at h; simp only [digits, written, List.foldl_nil]; omega
  | succ fuel ih =>
    unfold digits
    split
    · next hn => simp only [written, List.foldl_cons, List.foldl_nil, digit_char n hn]; omega
    · have h1 := ih (n / 10) (by rw [Nat.div_lt_iff_lt_mul (by omega), ← Nat.pow_succ]; exact h)
      unfold written at *
      rw [List.foldl_append, h1]
      simp only [List.foldl_cons, List.foldl_nil, digit_char (n % 10) (Nat.mod_lt _ (by omega))]
      omega

theorem digits_are (fuel n : Nat) : ∀ c ∈ digits fuel n, ∃ d < 10, c = Char.ofNat (48 + d) := by
  induction fuel generalizing n with
  | zero => intro c hc; cases hc
  | succ fuel ih =>
    intro c hc
    unfold digits at hc
    split at hc
    · next hn => exact ⟨n, hn, by simpa using hc⟩
    · rcases List.mem_append.1 hc with hc | hc
      · exact ih _ c hc
      · exact ⟨n % 10, Nat.mod_lt _ (by omega), by simpa using hc⟩

theorem digit_lower (d : Nat) (h : d < 10) : lower (Char.ofNat (48 + d)) = Char.ofNat (48 + d) := by
  have : ∀ d : Fin 10, lower (Char.ofNat (48 + d.val)) = Char.ofNat (48 + d.val) := by decide
  exact this ⟨d, h⟩

/-- The processors that are numbers. -/
def numbered : List (Nat × Act) :=
  [(8086, .intel 0), (186, .intel 1), (80186, .intel 1), (286, .intel 2), (80286, .intel 2), (386, .intel 3), (80386, .intel 3), (486, .intel 4),
   (80486, .intel 4), (586, .intel 5), (686, .intel 6)]

theorem numbered_table : ∀ e ∈ cpuWords, (e.1.toList.all fun c => (List.range 10).any fun d => decide (c = Char.ofNat (48 + d))) = true →
    (written e.1.toList, e.2) ∈ numbered := by decide +kernel

theorem numbered_words : ∀ e ∈ numbered, cpuWords.any (fun w => decide (w.1.toList = decimal e.1 ∧ w.2 = e.2)) = true := by decide +kernel

theorem decimal_lower (n : Nat) : (decimal n).map lower = decimal n := by
  conv => rhs; rw [← List.map_id (decimal n)]
  apply List.map_congr_left
  intro c hc
  obtain ⟨d, hd, rfl⟩ := digits_are _ _ c hc
  exact digit_lower d hd

/-- A number is known to CPU if it is one of the eleven. -/
theorem number_stands (n : Nat) (h : n < 10 ^ 20) (a : Act) : Stands (decimal n) a ↔ (n, a) ∈ numbered := by
  unfold Stands
  rw [decimal_lower]
  constructor
  · rintro ⟨name, hm, hn⟩
    have h1 := numbered_table _ hm (by
      rw [List.all_eq_true]
      intro c hc
      dsimp only at hc
      rw [← hn] at hc
      obtain ⟨d, hd, e⟩ := digits_are _ _ c hc
      rw [List.any_eq_true]
      exact ⟨d, List.mem_range.2 hd, decide_eq_true e⟩)
    dsimp only at h1
    rw [← hn, decimal, written_digits 20 n h] at h1
    exact h1
  · intro hm
    have := numbered_words _ hm
    rw [List.any_eq_true] at this
    obtain ⟨w, hw, h1⟩ := this
    obtain ⟨h1, h2⟩ := of_decide_eq_true h1
    dsimp only at h1 h2
    exact ⟨w.1, by rw [← h2]; exact hw, h1.symm⟩

/-- C72, in part: a number up to 2^32 given to CPU is taken as the word of its decimal digits, so it is known exactly if it is that of a processor.
    What is missing: larger numbers; see `large_number_overflows` and `number_taken_for_386`. -/
theorem number_exact_partial (s : State) {v : Intnum} (hv : Canon v) (h0 : 0 ≤ val v) (h1 : val v < 2 ^ 32) (named : Bool) :
    ∃ w t, ({ named := named, value := .expr (some v) } : Param).said = some w ∧ cpuParam s { named := named, value := .expr (some v) } = some t ∧
      t = parseCpu s w ∧ (written w : Int) = val v ∧ ∀ a, Stands w a ↔ ∃ n : Nat, (n : Int) = val v ∧ (n, a) ∈ numbered := by
  have hu := get_uint_partial v hv (by omega)
  rw [if_neg (by omega), if_pos h1] at hu
  have hlt : (getUint v).toNat < 10 ^ 20 := by omega
  have hlen := digits_length 20 (getUint v).toNat 10 (by omega) (by omega)
  refine ⟨_, _, rfl, ?_, rfl, ?_, fun a => ?_⟩
  · show (if (decimal (getUint v).toNat).length + 1 > 16 then none else some (parseCpu s (decimal (getUint v).toNat))) = _
    rw [if_neg (by unfold decimal; omega)]
  · have := written_digits 20 _ hlt
    unfold decimal
    rw [this]
    exact hu
  · rw [number_stands _ hlt]
    constructor
    · exact fun h => ⟨_, hu, h⟩
    · rintro ⟨n, hn, hm⟩
      have : n = (getUint v).toNat := by omega
      rw [← this]
      exact hm

/-- C72 fails for numbers from 2^33 on: twenty digits are written to a buffer of 16 bytes. -/
theorem large_number_overflows (s : State) {v : Intnum} (hv : Canon v) (h : 2 ^ 33 ≤ val v) (named : Bool) :
    cpuParam s { named := named, value := .expr (some v) } = none := by
  have hu := get_uint_partial v hv (by omega)
  rw [if_neg (by omega), if_neg (by omega)] at hu
  have hu : (getUint v).toNat = 2 ^ 64 - 1 := by omega
  show (if (decimal (getUint v).toNat).length + 1 > 16 then none else some (parseCpu s (decimal (getUint v).toNat))) = none
  rw [hu, if_pos (by decide +kernel)]

/-- C72 fails for 4294967682, which is taken for 386. -/
theorem number_taken_for_386 :
    Canon (.BV (BitVec.ofInt 256 4294967682)) ∧ val (.BV (BitVec.ofInt 256 4294967682)) = 4294967682 ∧
    ({ named := false, value := .expr (some (.BV (BitVec.ofInt 256 4294967682))) } : Param).said = some ['3', '8', '6'] := by
  refine ⟨?_, ?_, ?_⟩
  · simp only [Canon]; decide +kernel
  · decide +kernel
  · decide +kernel

/-! ### C72: BITS -/

/-- C72: BITS with a number sets the mode to it if it is 16, 32 or 64; otherwise there is an error and nothing else changes. -/
theorem bits_exact (s : State) (p : Param) (ps : List Param) {v : Intnum} (hp : p.number = some v) (hv : Canon v) :
    (p.named = false → (val v = 16 ∨ val v = 32 ∨ val v = 64) → ∃ t, step s (.bits (p :: ps)) = some { s with modeBits := t } ∧ (t : Int) = val v) ∧
    (p.named = true ∨ ¬ (val v = 16 ∨ val v = 32 ∨ val v = 64) → step s (.bits (p :: ps)) = some { s with errors := s.errors + 1 }) := by
  have hi := get_int_partial v hv
  have key : (getInt v = 16#64 ∨ getInt v = 32#64 ∨ getInt v = 64#64) ↔ (val v = 16 ∨ val v = 32 ∨ val v = 64) := by
    have e : ∀ c : Int, -(2 ^ 31) < c → c < 2 ^ 31 → (getInt v = BitVec.ofInt 64 c ↔ val v = c) := by
      intro c h1 h2
      have hc : (BitVec.ofInt 64 c).toInt = c := by
        rw [BitVec.toInt_ofInt]
        exact Int.bmod_eq_of_le (by omega) (by omega)
      rw [← BitVec.toInt_inj, hi, hc]
      split
      · omega
      · split <;> omega
    have e16 := e 16 (by omega) (by omega)
    have e32 := e 32 (by omega) (by omega)
    have e64 := e 64 (by omega) (by omega)
    exact or_congr e16 (or_congr e32 e64)
  constructor
  · intro hn h
    refine ⟨(getInt v).toNat % 256, ?_, ?_⟩
    · simp only [step, dirBits, hn, hp, Bool.false_eq_true, if_false]
      rw [if_pos (key.2 h)]
    · rcases key.2 h with h' | h' | h' <;> rw [h'] at hi ⊢ <;> rcases h with h | h | h <;> rw [h] at hi ⊢ <;> revert hi <;> decide
  · intro h
    simp only [step, dirBits]
    cases hn : p.named with
    | true => simp
    | false =>
      simp only [hn, Bool.false_eq_true, false_or] at h
      simp only [hp, Bool.false_eq_true, if_false]
      rw [if_neg (fun h' => h (key.1 h'))]

/-- A mode of x86, or none yet. -/
def Mode (n : Nat) : Prop := n = 0 ∨ n = 16 ∨ n = 32 ∨ n = 64

theorem step_mode {s t : State} (hs : Mode s.modeBits) {d : Step} (hv : ∀ n, d = .var .modeBits n → Mode n) (h : step s d = some t) : Mode t.modeBits := by
  cases d with
  | cpu ps =>
    simp only [step] at h
    have one : ∀ (s : State) (w : List Char), (parseCpu s w).modeBits = s.modeBits := by
      intro s w
      unfold parseCpu
      split
      · rfl
      · split
        · rfl
        · unfold State.activate; dsimp only; split <;> rfl
    have : t.modeBits = s.modeBits := by
      clear hs hv
      induction ps generalizing s with
      | nil => simp only [dirCpu, Option.some.injEq] at h; rw [h]
      | cons p ps ih =>
        simp only [dirCpu] at h
        split at h
        · cases h
        · next u hu =>
          rw [ih h]
          unfold cpuParam at hu
          split at hu
          · injection hu with hu; rw [← hu]; exact one _ _
          · injection hu with hu; rw [← hu]
          · split at hu
            · cases hu
            · injection hu with hu; rw [← hu]; exact one _ _
    rw [this]
    exact hs
  | bits ps =>
    simp only [step, Option.some.injEq] at h
    rw [← h]
    cases ps with
    | nil => exact hs
    | cons p ps =>
      simp only [dirBits]
      split
      · exact hs
      · cases p.number with
        | none => exact hs
        | some v =>
          dsimp only
          split
          · next h' =>
            show Mode ((getInt v).toNat % 256)
            unfold Mode
            rcases h' with h' | h' | h' <;> rw [h'] <;> simp
          · exact hs
  | code16 => injection h with h; rw [← h]; exact Or.inr (Or.inl rfl)
  | code32 => injection h with h; rw [← h]; exact Or.inr (Or.inr (Or.inl rfl))
  | code64 => injection h with h; rw [← h]; exact Or.inr (Or.inr (Or.inr rfl))
  | var v n =>
    injection h with h
    rw [← h]
    cases v with
    | modeBits =>
      have := hv n rfl
      show Mode (n % 2 ^ 32)
      rcases this with h | h | h | h <;> rw [h] <;> simp [Mode]
    | forceStrict => exact hs
    | defaultRel => simp only [setVar]; split <;> exact hs
    | gasIntel => exact hs

/-- C72: the mode is always 16, 32 or 64 once there is one: padding and addresses are always for a mode that exists. -/
theorem mode_valid {amd64 : Bool} {addressSize : Nat} {p : Parser} {ds : List Step} {t : State} (hv : ∀ n, Step.var .modeBits n ∈ ds → Mode n)
    (h : run (create amd64 addressSize p) ds = some t) : Mode t.modeBits ∧ (t.modeBits ≠ 0 → t.fill.isSome = true ∧ t.addrSize = t.modeBits) := by
  have main : ∀ (ds : List Step) (s : State), (∀ n, Step.var .modeBits n ∈ ds → Mode n) → Mode s.modeBits → run s ds = some t → Mode t.modeBits := by
    intro ds
    induction ds with
    | nil => intro s _ hs h; simp only [run, Option.some.injEq] at h; rw [← h]; exact hs
    | cons d ds ih =>
      intro s hv hs h
      simp only [run] at h
      split at h
      · cases h
      · next u hu =>
        exact ih u (fun n hn => hv n (List.mem_cons_of_mem _ hn)) (step_mode hs (fun n e => hv n (e ▸ List.mem_cons_self ..)) hu) h
  have hm := main ds _ hv (Or.inl rfl) h
  refine ⟨hm, fun h0 => ⟨?_, by unfold State.addrSize; rw [if_pos h0]⟩⟩
  unfold State.fill Bytecode.x86GetFill
  rcases hm with e | e | e | e
  · exact absurd e h0
  · rw [e]; rfl
  · rw [e]; cases t.nop <;> rfl
  · rw [e]; cases t.nop <;> rfl

/-- C72: `default rel` is accepted in 64-bit mode only; elsewhere there is a warning and nothing else changes. -/
theorem default_rel_exact (s : State) (n : Nat) (hn : n < 2 ^ 32) :
    step s (.var .defaultRel n) = some (if s.modeBits = 64 then { s with defaultRel := n } else { s with warnings := s.warnings + 1 }) := by
  simp only [step, setVar]
  by_cases h : s.modeBits = 64
  · rw [if_neg (by omega), if_pos h, Nat.mod_eq_of_lt hn]
  · rw [if_pos h, if_neg h]

/-! ### Cases -/

/-- A word as a parameter. -/
def word (w : String) : Param := { named := false, value := .word w.toList none }

/-- What is enabled of some features, and the padding, after some CPU directives. -/
def after (ds : List (List Param)) (ks : List Nat) : Option (List Bool × NopStyle × List (List Char)) :=
  (run (create true 64 .nasm) (ds.map .cpu)).map fun t => (ks.map t.setting.cpu, t.nop, t.unknown)

/-- `CPU Pentium4 nosse2`, and then `CPU foo AVX`: SSE but not SSE2, AVX but not AVX2, and `foo` is reported. -/
example : after [[word "Pentium4", word "nosse2"], [word "foo", word "AVX"]] [15, 16, 34, 47] =
    some ([true, false, true, false], .intel, [['f', 'o', 'o']]) := by decide +kernel

/-- After an `ia64` the padding is that of the processor before. -/
example : after [[word "ia64"]] [] = some ([], .basic, []) ∧ after [[word "athlon"], [word "ia64"]] [] = some ([], .amd, []) := by
  decide +kernel

/-- A number. -/
example : after [[{ named := false, value := .expr (some (.L 386#64)) }]] [3, 4] = some ([true, false], .basic, []) := by decide +kernel

/-- The sets are shared: the third directive finds that of the first. -/
example : (run (create true 64 .nasm) [.cpu [word "386"], .cpu [word "mmx"], .cpu [word "nommx"]]).map (fun t => (t.enables.length, t.active)) =
    some (3, 1) := by decide +kernel

/-- `BITS 32`, `BITS 33`. -/
example : ((run (create true 64 .nasm) [.bits [{ named := false, value := .expr (some (.L 32#64)) }],
    .bits [{ named := false, value := .expr (some (.L 33#64)) }]]).map fun t => (t.modeBits, t.errors)) = some (32, 1) := by decide +kernel

/-- `CPU sandybridge_and_later`, which is ignored. -/
example : after [[word "sandybridge_and_later"]] [47] = some ([true], .basic, []) := by decide +kernel

end Verif.Cpu
