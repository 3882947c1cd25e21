import Verif.Coff.Bytes
import Mathlib.Tactic.Tauto
/-
Where the output puts what: the indexes of the symbols, the contents and relocations of the sections, the entries of the
symbols and the strings.
-/
set_option linter.unusedSimpArgs false
namespace Verif.Coff
open Verif.Elf (Byte Name Num number slice field string le At le_length)

theorem puts_listed (o : Obj) (s : Sym) : o.puts s = o.listed s := rfl

theorem dataOf_aux (s : Sym) : s.dataOf.aux = s.aux := by
  unfold Sym.dataOf Sym.aux
  rcases s.data with _ | d
  · rfl
  · simp only
    split <;> rfl

/-! ### Indexes -/

/-- The entries of the listed symbols of a list. -/
def entriesIn (o : Obj) (ss : List Sym) : Nat := ((ss.filter o.listed).map fun s => 1 + s.aux.count).sum

theorem entriesIn_cons (o : Obj) (s : Sym) (ss : List Sym) :
    entriesIn o (s :: ss) = (if o.listed s then 1 + s.aux.count else 0) + entriesIn o ss := by
  unfold entriesIn
  by_cases h : o.listed s = true
  · rw [List.filter_cons_of_pos h, if_pos h]; simp
  · rw [List.filter_cons_of_neg h, if_neg h]; simp

theorem countSyms_total (o : Obj) (ss : List Sym) (i : Nat) : (countSyms o i ss).2 = i + entriesIn o ss := by
  induction ss generalizing i with
  | nil => rfl
  | cons s ss ih =>
    rw [entriesIn_cons]
    unfold countSyms
    rw [puts_listed]
    by_cases h : o.listed s = true
    · rw [if_pos h, if_pos h]; simp only [ih, dataOf_aux]; omega
    · rw [if_neg h, if_neg h]; simp only [ih]; omega

theorem countSyms_index (o : Obj) (ss : List Sym) (i n : Nat) {s : Sym} (hs : ss[n]? = some s) (hl : o.listed s = true) :
    (countSyms o i ss).1[n]? = some (some (i + entriesIn o (ss.take n))) := by
  induction ss generalizing i n with
  | nil => simp at hs
  | cons a ss ih =>
    unfold countSyms
    rw [puts_listed]
    rcases n with _ | n
    · simp only [List.getElem?_cons_zero, Option.some.injEq] at hs
      subst hs
      rw [if_pos hl]
      simp [entriesIn]
    · simp only [List.getElem?_cons_succ] at hs
      rw [List.take_succ_cons, entriesIn_cons]
      by_cases h : o.listed a = true
      · rw [if_pos h, if_pos h]
        simp only [List.getElem?_cons_succ]
        rw [ih _ _ hs, dataOf_aux]
        congr 2; omega
      · rw [if_neg h, if_neg h]
        simp only [List.getElem?_cons_succ]
        rw [ih _ _ hs]
        congr 2; omega

/-! ### Relocations -/

theorem relocsBytes_read {ix : List (Option Nat)} {rs : List Reloc} {bs : List Byte} (h : relocsBytes ix rs = some bs)
    {f : List Byte} {pos : Nat} (ha : At f pos bs) (hr : ∀ r ∈ rs, r.addr < 2 ^ 32 ∧ r.type < 2 ^ 16)
    (want : Nat → Nat) (hix : ∀ r ∈ rs, ix[r.sym]? = some (some (want r.sym)) ∧ want r.sym < 2 ^ 32) :
    relsAt f pos rs.length = some (rs.map fun r => ⟨r.addr, want r.sym, r.type⟩) := by
  induction rs generalizing bs pos with
  | nil => rfl
  | cons r rs ih =>
    obtain ⟨h1, h2⟩ := hr r (by simp)
    obtain ⟨h3, h4⟩ := hix r (by simp)
    unfold relocsBytes relocBytes at h
    rw [h3] at h
    simp only at h
    rcases hb : relocsBytes ix rs with _ | bs'
    · rw [hb] at h; cases h
    · rw [hb] at h
      cases h
      have a1 : At f pos (le 4 r.addr) := ha.left.left.left
      have a2 : At f (pos + 4) (le 4 (want r.sym)) := (ha.left.left.right' (by simp [le_length]))
      have a3 : At f (pos + 8) (le 2 r.type) := ha.left.right' (by simp [le_length])
      have a4 : At f (pos + 10) bs' := ha.right' (by simp [le_length])
      simp only [List.length_cons, relsAt, relAt, a1.field (by simpa using h1), a2.field (by simpa using h4),
        a3.field (by simpa using h2), ih hb a4 (fun r hr' => hr r (by simp [hr'])) (fun r hr' => hix r (by simp [hr'])),
        Option.bind_eq_bind, Option.bind_some, List.map_cons]

/-! ### Sections -/

/-- A section has been written. -/
structure Placed (o : Obj) (ix : List (Option Nat)) (N : Nat) (file S : List Byte) (s : Sect) (h : Head) : Prop where
  name : longName o s.name = true → ∃ p, h.strName = 4 + p ∧ At S p (s.name ++ [0])
  nameless : longName o s.name = false → h.strName = 0
  size : h.size = s.length
  ptrs : h.scnptr ≤ file.length ∧ h.relptr ≤ file.length
  bss : s.bss = true → h.scnptr = 0 ∧ h.nreloc = 0
  nreloc : s.bss = false → h.nreloc = s.relocs.length
  bytes : s.bss = false → (s.chunks.flatMap Elf.Chunk.write).length = s.length ∧ (s.length = 0 → h.scnptr = 0) ∧
    (s.length ≠ 0 → N ≤ h.scnptr ∧ At file h.scnptr (s.chunks.flatMap Elf.Chunk.write))
  rels : s.bss = false → s.length ≠ 0 → s.relocs ≠ [] → ∃ rs, relocsBytes ix s.relocs = some rs ∧ N ≤ h.relptr ∧
    At file h.relptr (overflow o s.relocs.length ++ rs)

theorem Placed.mono {o ix N N' file file' S S' s h} (p : Placed o ix N file S s h) (hN : N' ≤ N) (hf : file <+: file')
    (hS : S <+: S') : Placed o ix N' file' S' s h := by
  have hl := hf.length_le
  refine ⟨?_, p.nameless, p.size, ⟨p.ptrs.1.trans hl, p.ptrs.2.trans hl⟩, p.bss, p.nreloc, ?_, ?_⟩
  · intro h1
    obtain ⟨k, h2, h3⟩ := p.name h1
    exact ⟨k, h2, h3.mono hS⟩
  · intro h1
    obtain ⟨h2, h3, h4⟩ := p.bytes h1
    exact ⟨h2, h3, fun h5 => ⟨hN.trans (h4 h5).1, (h4 h5).2.mono hf⟩⟩
  · intro h1 h2 h3
    obtain ⟨rs, h4, h5, h6⟩ := p.rels h1 h2 h3
    exact ⟨rs, h4, hN.trans h5, h6.mono hf⟩

/-- The string of a section's name. -/
def sectStr (o : Obj) (s : Sect) : List Byte := if o.format.win then longStr 8 s.name else []

theorem sectStr_long {o : Obj} {s : Sect} (h : longName o s.name = true) : sectStr o s = s.name ++ [0] := by
  simp only [longName, Bool.and_eq_true, decide_eq_true_eq] at h
  simp [sectStr, longStr, h.1, h.2]

theorem sectStr_short {o : Obj} {s : Sect} (h : longName o s.name = false) : sectStr o s = [] := by
  unfold sectStr longStr
  simp only [longName, Bool.and_eq_false_iff, decide_eq_false_iff_not] at h
  rcases h with h | h
  · simp [h]
  · simp [h]

theorem outSection_ok {o : Obj} {ix : List (Option Nat)} {s : Sect} {w w' : W} (h : outSection o ix s w = some w') {P : List Byte}
    (hw : w.str = 4 + P.length) :
    w'.str = 4 + (P ++ sectStr o s).length ∧ w.file <+: w'.file ∧
      ∃ hd, w'.heads = w.heads ++ [hd] ∧ Placed o ix w.file.length w'.file (P ++ sectStr o s) s hd := by
  have hstr : (if longName o s.name then w.str + (s.name.length + 1) else w.str) = 4 + (P ++ sectStr o s).length := by
    rcases hl : longName o s.name with _ | _
    · simp [sectStr_short hl, hw]
    · simp [sectStr_long hl, hw]; omega
  have hname : ∀ k, k = (if longName o s.name then w.str else 0) →
      (longName o s.name = true → ∃ p, k = 4 + p ∧ At (P ++ sectStr o s) p (s.name ++ [0])) ∧ (longName o s.name = false → k = 0) := by
    intro k hk
    constructor
    · intro hl
      rw [if_pos hl] at hk
      exact ⟨P.length, by omega, by rw [sectStr_long hl]; exact At.end_ _ _⟩
    · intro hl; rw [hl] at hk; simpa using hk
  unfold outSection at h
  simp only at h
  split at h
  · rename_i hb
    cases h
    refine ⟨hstr, List.prefix_refl _, _, rfl, ?_⟩
    exact ⟨(hname _ rfl).1, (hname _ rfl).2, rfl, ⟨Nat.zero_le _, Nat.zero_le _⟩, fun _ => ⟨rfl, rfl⟩, (by rw [hb]; simp),
      (by rw [hb]; simp), (by rw [hb]; simp)⟩
  · rename_i hb
    split at h
    · cases h
    · rename_i hlen
      simp only [ne_eq, not_not] at hlen
      split at h
      · rename_i h0
        cases h
        refine ⟨hstr, List.prefix_refl _, _, rfl, ?_⟩
        refine ⟨(hname _ rfl).1, (hname _ rfl).2, ?_, ⟨Nat.zero_le _, Nat.zero_le _⟩, fun h => absurd h hb, fun _ => rfl,
          fun _ => ⟨hlen, fun _ => rfl, ?_⟩, ?_⟩
        · simp only; omega
        · intro h; omega
        · intro _ h; omega
      · rename_i h0
        split at h
        · rename_i hr
          cases h
          refine ⟨hstr, List.prefix_append _ _, _, rfl, ?_⟩
          refine ⟨(hname _ rfl).1, (hname _ rfl).2, hlen, ⟨by simp, Nat.zero_le _⟩, fun h => absurd h hb,
            fun _ => hr.symm, fun _ => ⟨hlen, ?_, fun _ => ⟨Nat.le_refl _, At.end_ _ _⟩⟩, ?_⟩
          · intro h; omega
          · intro _ _ h; exact absurd (List.length_eq_zero_iff.mp hr) h
        · rename_i hr
          split at h
          · cases h
          · rename_i rs hrs
            cases h
            refine ⟨hstr, ?_, _, rfl, ?_⟩
            · simp only [List.append_assoc]; exact List.prefix_append _ _
            · refine ⟨(hname _ rfl).1, (hname _ rfl).2, hlen, ⟨by simp, by simp⟩, fun h => absurd h hb,
                fun _ => rfl, fun _ => ⟨hlen, ?_, fun _ => ⟨Nat.le_refl _, ?_⟩⟩, ?_⟩
              · intro h; omega
              · exact ((At.end_ w.file _).append_right _).append_right _
              · intro _ _ _
                refine ⟨rs, hrs, by simp, ?_⟩
                simp only
                rw [List.append_assoc _ (overflow o s.relocs.length) rs, show w.file.length + (s.chunks.flatMap Elf.Chunk.write).length =
                  (w.file ++ s.chunks.flatMap Elf.Chunk.write).length by simp]
                exact At.end_ _ _

theorem sectStrs_cons (o : Obj) (s : Sect) (ss : List Sect) : sectStrs o (s :: ss) = sectStr o s ++ sectStrs o ss := rfl

theorem outSections_ok {o : Obj} {ix : List (Option Nat)} {ss : List Sect} {w w' : W} (h : outSections o ix ss w = some w')
    {P : List Byte} (hw : w.str = 4 + P.length) :
    w'.str = 4 + (P ++ sectStrs o ss).length ∧ w.file <+: w'.file ∧
      ∃ hs, w'.heads = w.heads ++ hs ∧ hs.length = ss.length ∧
        ∀ (j : Nat) s, ss[j]? = some s → ∃ hd, hs[j]? = some hd ∧ Placed o ix w.file.length w'.file (P ++ sectStrs o ss) s hd := by
  induction ss generalizing w P with
  | nil =>
    cases h
    refine ⟨by simp [sectStrs, hw], List.prefix_refl _, [], by simp, rfl, ?_⟩
    intro j s hj; simp at hj
  | cons a ss ih =>
    unfold outSections at h
    rcases h1 : outSection o ix a w with _ | w1
    · rw [h1] at h; cases h
    · rw [h1] at h
      simp only at h
      obtain ⟨a1, a2, hd, a3, a4⟩ := outSection_ok h1 hw
      obtain ⟨b1, b2, hs, b3, b4, b5⟩ := ih h a1
      rw [List.append_assoc, ← sectStrs_cons] at b1 b5
      refine ⟨b1, a2.trans b2, hd :: hs, by rw [b3, a3]; simp, by simp [b4], ?_⟩
      intro j s hj
      rcases j with _ | j
      · simp only [List.getElem?_cons_zero, Option.some.injEq] at hj
        subst hj
        refine ⟨hd, rfl, a4.mono (Nat.le_refl _) b2 ?_⟩
        rw [sectStrs_cons, ← List.append_assoc]
        exact List.prefix_append _ _
      · simp only [List.getElem?_cons_succ] at hj ⊢
        obtain ⟨hd', c1, c2⟩ := b5 j s hj
        exact ⟨hd', c1, c2.mono a2.length_le (List.prefix_refl _) (List.prefix_refl _)⟩

/-! ### Headers -/

theorem fileHeader_length (o : Obj) (a b : Nat) : (fileHeader o a b).length = 20 := by simp [fileHeader, le_length]

theorem sectName_length (n : Name) (k : Nat) : (sectName n k).length = 8 := by
  unfold sectName; split <;> exact strncpy_length _ _

theorem headBytes_length (o : Obj) (s : Sect) (h : Head) : (headBytes o s h).length = 40 := by
  simp [headBytes, le_length, sectName_length]

theorem headsBytes_length (o : Obj) (ss : List Sect) (hs : List Head) (h : hs.length = ss.length) :
    (headsBytes o ss hs).length = 40 * ss.length := by
  induction ss generalizing hs with
  | nil => simp [headsBytes]
  | cons s ss ih =>
    rcases hs with _ | ⟨a, hs⟩
    · simp at h
    · simp only [headsBytes, List.length_append, headBytes_length, ih hs (by simpa using h), List.length_cons]; omega

theorem headsBytes_at (o : Obj) (ss : List Sect) (hs : List Head) (j : Nat) {s : Sect} {hd : Head} (h1 : ss[j]? = some s)
    (h2 : hs[j]? = some hd) : At (headsBytes o ss hs) (40 * j) (headBytes o s hd) := by
  induction ss generalizing hs j with
  | nil => simp at h1
  | cons a ss ih =>
    rcases hs with _ | ⟨b, hs⟩
    · simp at h2
    · rcases j with _ | j
      · simp only [List.getElem?_cons_zero, Option.some.injEq] at h1 h2
        subst h1 h2
        exact ⟨[], _, rfl, rfl⟩
      · simp only [List.getElem?_cons_succ] at h1 h2
        have := (ih hs j h1 h2).append_left (headBytes o a b)
        rw [headBytes_length] at this
        rw [show 40 * (j + 1) = 40 + 40 * j by omega]
        exact this

/-! ### Symbols -/

theorem nameBytes_length (n : Name) (k : Nat) : (nameBytes n k).length = 8 := by
  unfold nameBytes
  split
  · simp [le_length]
  · exact strncpy_length _ _

theorem auxBytes_length (o : Obj) (hs : List Head) (s : Sym) (str : Nat) : (auxBytes o hs s str).length = 18 * s.aux.count := by
  unfold auxBytes
  rw [dataOf_aux]
  rcases s.aux with _ | _ | _
  · rfl
  · simp [le_length, Aux.count]
  · simp only [Aux.count]; split <;> simp [le_length, strncpy_length]

theorem symBytes_length (o : Obj) (hs : List Head) (s : Sym) (str : Nat) :
    (symBytes o hs s str).length = 18 * (1 + s.aux.count) := by
  simp only [symBytes, List.length_append, nameBytes_length, le_length, auxBytes_length]; omega

/-- The strings of a symbol. -/
def symStr (o : Obj) (s : Sym) : List Byte :=
  if o.putsStr s then longStr 8 (o.globalName s) ++ (if s.dataOf.aux = .file then longStr 14 o.src else []) else []

theorem symStrs_cons (o : Obj) (s : Sym) (ss : List Sym) : symStrs o (s :: ss) = symStr o s ++ symStrs o ss := rfl

theorem symName_want (o : Obj) (s : Sym) : o.symName s = o.wantName s := by
  unfold Obj.symName Obj.wantName Obj.globalName
  have e : (s.glob || s.common || s.ext) = (s.ext || s.common || s.glob) := by
    cases s.glob <;> cases s.common <;> cases s.ext <;> rfl
  rw [e]

theorem putsStr_false {o : Obj} {s : Sym} (h : o.putsStr s = false) (hl : o.listed s = true) : s.isAbs = true := by
  have h1 : o.puts s = true := hl
  unfold Obj.puts at h1
  unfold Obj.putsStr at h
  simp only [Bool.or_eq_false_iff] at h
  rw [h.1.1, h.1.2, h.2] at h1
  simpa using h1

/-- The strings of a listed symbol are those its entry refers to. -/
theorem symStr_eq {o : Obj} {s : Sym} (hk : SymOk o s) (hl : o.listed s = true) :
    symStr o s = longStr 8 (o.symName s) ++ (if s.aux = .file then longStr 14 o.src else []) := by
  unfold symStr
  rw [dataOf_aux]
  rcases ha : s.isAbs with _ | _
  · have : o.putsStr s = true := by
      rcases hp : o.putsStr s with _ | _
      · rw [putsStr_false hp hl] at ha; cases ha
      · rfl
    rw [if_pos this]
    simp [Obj.symName, ha]
  · obtain ⟨h1, h2⟩ := hk.abs ha
    have e1 : longStr 8 (o.globalName s) = [] := by unfold longStr; rw [if_neg (by omega)]
    have e2 : longStr 8 (o.symName s) = [] := by
      unfold longStr Obj.symName
      rw [ha, if_pos rfl, if_neg (by decide)]
    rw [e1, e2, h2]
    simp

theorem afterName_eq (limit : Nat) (n : Name) (str : Nat) : afterName limit n str = str + (longStr limit n).length := by
  unfold afterName longStr
  split <;> simp

theorem longStr_long {limit : Nat} {n : Name} (h : limit < n.length) : longStr limit n = n ++ [0] := if_pos h

theorem symsBytes_ok {o : Obj} (heads : List Head) {ss : List Sym} (hok : ∀ s ∈ ss, o.listed s = true → SymOk o s) {str : Nat}
    {P : List Byte} (hs : str = 4 + P.length) :
    (symsBytes o heads ss str).2.1 = 4 + (P ++ symStrs o ss).length ∧
    (symsBytes o heads ss str).1.length = 18 * entriesIn o ss ∧
    ∀ (n : Nat) s, ss[n]? = some s → o.listed s = true →
      ∃ k, At (symsBytes o heads ss str).1 (18 * entriesIn o (ss.take n)) (symBytes o heads s k) ∧
        k ≤ 4 + (P ++ symStrs o ss).length ∧ afterName 8 (o.symName s) k ≤ 4 + (P ++ symStrs o ss).length ∧
        (8 < (o.symName s).length → ∃ p, k = 4 + p ∧ At (P ++ symStrs o ss) p (o.symName s ++ [0])) ∧
        (s.aux = .file → 14 < o.src.length → ∃ p, afterName 8 (o.symName s) k = 4 + p ∧ At (P ++ symStrs o ss) p (o.src ++ [0])) := by
  induction ss generalizing str P with
  | nil =>
    refine ⟨by simp [symsBytes, symStrs, hs], rfl, ?_⟩
    intro n s hn; simp at hn
  | cons a ss ih =>
    have hok' : ∀ s ∈ ss, o.listed s = true → SymOk o s := fun s h => hok s (by simp [h])
    unfold symsBytes
    rw [puts_listed]
    by_cases hl : o.listed a = true
    · rw [if_pos hl]
      simp only
      have hka := hok a (by simp) hl
      have e := symStr_eq hka hl
      have hs' : afterAux o a (afterName 8 (o.symName a) str) = 4 + (P ++ symStr o a).length := by
        rw [e]
        unfold afterAux
        rw [dataOf_aux]
        rcases haux : a.aux with _ | _ | _ <;> simp [afterName_eq, hs] <;> omega
      obtain ⟨c1, c2, c3⟩ := ih hok' hs'
      rw [List.append_assoc, ← symStrs_cons] at c1 c3
      refine ⟨c1, ?_, ?_⟩
      · rw [List.length_append, symBytes_length, c2, entriesIn_cons, if_pos hl]; omega
      · intro n s hn hls
        rcases n with _ | n
        · simp only [List.getElem?_cons_zero, Option.some.injEq] at hn
          subst hn
          refine ⟨str, ?_, ?_, ?_, ?_, ?_⟩
          · exact ⟨[], _, rfl, rfl⟩
          · simp only [List.length_append]; omega
          · rw [afterName_eq, symStrs_cons, e]
            simp only [List.length_append]; omega
          · intro hlong
            refine ⟨P.length, hs, ?_⟩
            rw [symStrs_cons, e, longStr_long hlong]
            simp only [List.append_assoc]
            exact ⟨P, _, by simp only [List.append_assoc]; rfl, rfl⟩
          · intro hf hlong
            refine ⟨(P ++ longStr 8 (o.symName a)).length, ?_, ?_⟩
            · rw [afterName_eq, hs, List.length_append]; omega
            · rw [symStrs_cons, e, if_pos hf, longStr_long hlong]
              exact ⟨P ++ longStr 8 (o.symName a), symStrs o ss, by simp only [List.append_assoc], rfl⟩
        · simp only [List.getElem?_cons_succ] at hn
          obtain ⟨k, d1, d2, d3, d4, d5⟩ := c3 n s hn hls
          refine ⟨k, ?_, d2, d3, d4, d5⟩
          have := d1.append_left (symBytes o heads a str)
          rw [symBytes_length] at this
          rw [List.take_succ_cons, entriesIn_cons, if_pos hl, Nat.mul_add]
          exact this
    · rw [if_neg hl]
      have e : symStr o a = [] := by
        unfold symStr
        rw [if_neg]
        intro h
        apply hl
        show o.puts a = true
        unfold Obj.putsStr at h
        unfold Obj.puts
        simp only [Bool.or_eq_true] at h ⊢
        tauto
      obtain ⟨c1, c2, c3⟩ := ih hok' hs
      rw [symStrs_cons, e, List.nil_append]
      refine ⟨c1, by rw [c2, entriesIn_cons, if_neg hl]; omega, ?_⟩
      intro n s hn hls
      rcases n with _ | n
      · simp only [List.getElem?_cons_zero, Option.some.injEq] at hn
        subst hn
        exact absurd hls hl
      · simp only [List.getElem?_cons_succ] at hn
        obtain ⟨k, d⟩ := c3 n s hn hls
        refine ⟨k, ?_⟩
        rw [List.take_succ_cons, entriesIn_cons, if_neg hl, Nat.zero_add]
        exact d

end Verif.Coff
