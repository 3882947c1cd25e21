import Verif.Macho.Spec
import Verif.Coff.Bytes
/-
Where things are in a Mach-O file.
-/
set_option linter.unusedSimpArgs false
namespace Verif.Macho
open Verif.Elf (Byte Name Num number slice field string le At le_length)
open Verif.Coff (strncpy strncpy_length alignBits shortName)

variable {o : Obj}

theorem puts_listed (o : Obj) (s : Sym) : o.puts s = o.listed s := rfl

/-! ### Lists of pieces -/

theorem flatMap_at {α : Type} (g : α → List Byte) (l : List α) {k : Nat} {x : α} (h : l[k]? = some x) :
    At (l.flatMap g) ((l.take k).flatMap g).length (g x) := by
  obtain ⟨hk, hx⟩ := List.getElem?_eq_some_iff.mp h
  refine ⟨(l.take k).flatMap g, (l.drop (k + 1)).flatMap g, ?_, rfl⟩
  rw [← List.flatMap_singleton g x, ← List.flatMap_append, ← List.flatMap_append]
  congr 1
  rw [← hx]
  simp

/-! ### The places of the sections -/

theorem calcSects_length (ss : List Sect) (vm off : Nat) : (calcSects ss vm off).1.length = ss.length := by
  induction ss generalizing vm off with
  | nil => rfl
  | cons s ss ih => simp [calcSects, ih]

theorem heads_length (o : Obj) : o.heads.length = o.sects.length := calcSects_length _ _ _

theorem calcSects_offset (ss : List Sect) (hl : ∀ s ∈ ss, s.written = true → s.data.length = s.length) (vm off k : Nat) {s : Sect}
    (hk : ss[k]? = some s) : ∃ h, (calcSects ss vm off).1[k]? = some h ∧
      (s.written = true → h.offset = off + ((ss.take k).flatMap Sect.data).length) := by
  induction ss generalizing vm off k with
  | nil => simp at hk
  | cons x ss ih =>
    cases k with
    | zero =>
      simp only [List.getElem?_cons_zero, Option.some.injEq] at hk
      subst hk
      refine ⟨_, by simp only [calcSects, List.getElem?_cons_zero]; rfl, ?_⟩
      intro hw; simp [hw]
    | succ k =>
      simp only [List.getElem?_cons_succ] at hk
      obtain ⟨h, h1, h2⟩ := ih (fun s hs => hl s (List.mem_cons_of_mem _ hs)) (vm + x.length + padding x.align vm)
        (if x.written then off + x.length else off) k hk
      refine ⟨h, by simp only [calcSects, List.getElem?_cons_succ]; exact h1, ?_⟩
      intro hw
      rw [h2 hw]
      simp only [List.take_succ_cons, List.flatMap_cons, List.length_append]
      by_cases hx : x.written = true
      · rw [if_pos hx, hl x List.mem_cons_self hx]; omega
      · rw [if_neg hx]
        have : x.data = [] := by unfold Sect.data; rw [if_neg hx]
        rw [this]; simp

theorem padding_zero (vm : Nat) : padding 0 vm = 0 := by simp [padding]

theorem padding_dvd (a vm : Nat) (ha : a ≠ 0) : a ∣ vm + padding a vm := by
  unfold padding
  by_cases h : vm % a > 0
  · rw [if_pos ⟨ha, h⟩]
    have h1 := Nat.mod_lt vm (Nat.pos_of_ne_zero ha)
    have h2 := Nat.div_add_mod vm a
    refine ⟨vm / a + 1, ?_⟩
    rw [Nat.mul_add, Nat.mul_one]; omega
  · rw [if_neg (by tauto)]
    exact Nat.dvd_of_mod_eq_zero (by rw [Nat.add_zero]; omega)

theorem calcSects_addr (ss : List Sect) (vm off k : Nat) {s : Sect} {h : Head} (hk : ss[k]? = some s)
    (hh : (calcSects ss vm off).1[k]? = some h) :
    vm ≤ h.vmoff ∧ s.wantAlign ∣ h.vmoff ∧ ∀ j hj, k < j → (calcSects ss vm off).1[j]? = some hj → h.vmoff + s.length ≤ hj.vmoff := by
  induction ss generalizing vm off k with
  | nil => simp at hk
  | cons x ss ih =>
    have low : ∀ (ss : List Sect) (vm off j : Nat) (hj : Head), (calcSects ss vm off).1[j]? = some hj → vm ≤ hj.vmoff := by
      intro ss
      induction ss with
      | nil => intro vm off j hj h; simp [calcSects] at h
      | cons y ss ih =>
        intro vm off j hj h
        cases j with
        | zero => simp only [calcSects, List.getElem?_cons_zero, Option.some.injEq] at h; subst h; simp only; omega
        | succ j =>
          simp only [calcSects, List.getElem?_cons_succ] at h
          have := ih _ _ _ _ h; omega
    cases k with
    | zero =>
      simp only [List.getElem?_cons_zero, Option.some.injEq] at hk
      subst hk
      simp only [calcSects, List.getElem?_cons_zero, Option.some.injEq] at hh
      subst hh
      refine ⟨by simp only; omega, ?_, ?_⟩
      · unfold Sect.wantAlign
        by_cases ha : x.align = 0
        · rw [if_pos ha]; exact Nat.one_dvd _
        · rw [if_neg ha]; exact padding_dvd _ _ ha
      · intro j hj hlt h
        cases j with
        | zero => omega
        | succ j =>
          simp only [calcSects, List.getElem?_cons_succ] at h
          have := low _ _ _ _ _ h
          simp only; omega
    | succ k =>
      simp only [List.getElem?_cons_succ] at hk
      simp only [calcSects, List.getElem?_cons_succ] at hh
      obtain ⟨a, b, c⟩ := ih _ _ _ hk hh
      refine ⟨by omega, b, ?_⟩
      intro j hj hlt h
      cases j with
      | zero => omega
      | succ j =>
        simp only [calcSects, List.getElem?_cons_succ] at h
        exact c j hj (by omega) h

theorem addr_eq {k : Nat} {h : Head} (hk : o.heads[k]? = some h) : o.addr k = h.vmoff := by
  unfold Obj.addr; rw [hk]

theorem laid (o : Obj) : Laid o o.addr := by
  have get : ∀ k, k < o.sects.length → ∃ h, o.heads[k]? = some h := by
    intro k hk
    exact ⟨_, List.getElem?_eq_getElem (by rw [heads_length]; exact hk)⟩
  constructor
  · intro k s hk
    obtain ⟨h, hh⟩ := get k (List.getElem?_eq_some_iff.mp hk).1
    rw [addr_eq hh]
    exact (calcSects_addr _ _ _ _ hk hh).2.1
  · intro j k s hj hlt hk
    obtain ⟨h, hh⟩ := get j (List.getElem?_eq_some_iff.mp hj).1
    obtain ⟨h', hh'⟩ := get k hk
    rw [addr_eq hh, addr_eq hh']
    exact (calcSects_addr _ _ _ _ hj hh).2.2 k h' hlt hh'

/-! ### The start of the file -/

/-- The size of the header of a section. -/
def Obj.hsize (o : Obj) : Nat := if o.wide then 80 else 68

theorem word_length (o : Obj) (v : Nat) : (o.word v).length = if o.wide then 8 else 4 := by
  unfold Obj.word; cases o.wide <;> simp [le_length]

theorem long_length (o : Obj) (v : Nat) : (o.long v).length = if o.wide then 8 else 4 := by
  unfold Obj.long; rw [le_length]

theorem headBytes_length (o : Obj) (s : Sect) (h : Head) (r : Nat) : (headBytes o s h r).length = o.hsize := by
  unfold headBytes Obj.hsize
  cases hw : o.wide <;> cases s.zerofill <;> by_cases hr : s.outRelocs.length = 0 <;>
    simp [le_length, strncpy_length, word_length, hw, hr]

theorem headsBytes_length (o : Obj) (ss : List Sect) (hs : List Head) (r : Nat) (h : hs.length = ss.length) :
    (headsBytes o ss hs r).length = o.hsize * ss.length := by
  induction ss generalizing hs r with
  | nil => simp [headsBytes]
  | cons s ss ih =>
    cases hs with
    | nil => simp at h
    | cons x hs =>
      simp only [headsBytes, List.length_append, headBytes_length, List.length_cons]
      rw [ih hs _ (by simpa using h), Nat.mul_add]; omega

theorem headsBytes_at (o : Obj) (ss : List Sect) (hs : List Head) (r k : Nat) {s : Sect} {h : Head} (h1 : ss[k]? = some s)
    (h2 : hs[k]? = some h) :
    At (headsBytes o ss hs r) (o.hsize * k) (headBytes o s h (r + ((ss.take k).map fun s => s.outRelocs.length * 8).sum)) := by
  induction ss generalizing hs r k with
  | nil => simp at h1
  | cons x ss ih =>
    cases hs with
    | nil => simp at h2
    | cons y hs =>
      cases k with
      | zero =>
        simp only [List.getElem?_cons_zero, Option.some.injEq] at h1 h2
        subst h1; subst h2
        simp only [headsBytes, List.take_zero, List.map_nil, List.sum_nil, Nat.add_zero, Nat.mul_zero]
        exact ⟨[], _, rfl, rfl⟩
      | succ k =>
        simp only [List.getElem?_cons_succ] at h1 h2
        have := ih hs (r + x.outRelocs.length * 8) k h1 h2
        have := this.append_left (headBytes o x y r)
        simp only [headsBytes, List.take_succ_cons, List.map_cons, List.sum_cons]
        rw [headBytes_length] at this
        rw [Nat.mul_add, Nat.mul_one, Nat.add_comm (o.hsize * k), ← Nat.add_assoc]
        exact this

theorem fileHeader_length (o : Obj) : (fileHeader o).length = if o.wide then 32 else 28 := by
  unfold fileHeader; cases o.wide <;> simp [le_length]

theorem versionCmd_length (o : Obj) : (versionCmd o).length = 24 := by simp [versionCmd, le_length]

theorem segmentCmd_length (o : Obj) : (segmentCmd o).length = if o.wide then 72 else 56 := by
  unfold segmentCmd; cases hw : o.wide <;> simp [le_length, long_length, hw]

theorem symtabCmd_length (o : Obj) : (symtabCmd o).length = 24 := by simp [symtabCmd, le_length]

theorem front_length (o : Obj) : o.front.length = o.headSize := by
  unfold Obj.front Obj.headSize
  simp only [List.length_append, fileHeader_length, versionCmd_length, segmentCmd_length, symtabCmd_length,
    headsBytes_length o o.sects o.heads 0 (heads_length o)]
  unfold Obj.hsize
  cases o.wide <;> simp <;> omega

/-! ### Relocations -/

theorem relocsBytes_append {ix : List (Option Nat)} {a b : List Reloc} {bs : List Byte} (h : relocsBytes o ix (a ++ b) = some bs) :
    ∃ x y, relocsBytes o ix a = some x ∧ relocsBytes o ix b = some y ∧ bs = x ++ y := by
  induction a generalizing bs with
  | nil => exact ⟨[], bs, rfl, h, rfl⟩
  | cons r a ih =>
    simp only [List.cons_append, relocsBytes] at h
    split at h
    · rename_i c d h1 h2
      cases h
      obtain ⟨x, y, e1, e2, e3⟩ := ih h2
      refine ⟨c ++ x, y, by simp only [relocsBytes, h1, e1], e2, by rw [e3]; simp⟩
    · cases h

theorem relocBytes_length {ix : List (Option Nat)} {r : Reloc} {bs : List Byte} (h : relocBytes o ix r = some bs) : bs.length = 8 := by
  unfold relocBytes at h
  split at h
  · cases h; simp [le_length]
  · cases h

theorem relocsBytes_length {ix : List (Option Nat)} {a : List Reloc} {bs : List Byte} (h : relocsBytes o ix a = some bs) :
    bs.length = 8 * a.length := by
  induction a generalizing bs with
  | nil => cases h; rfl
  | cons r a ih =>
    simp only [relocsBytes] at h
    split at h
    · rename_i c d h1 h2
      cases h
      rw [List.length_append, relocBytes_length h1, ih h2, List.length_cons]; omega
    · cases h

/-- The relocations of one section. -/
theorem relocs_at {ix : List (Option Nat)} (ss : List Sect) {bs : List Byte}
    (h : relocsBytes o ix (ss.flatMap Sect.outRelocs) = some bs) {k : Nat} {s : Sect} (hk : ss[k]? = some s) :
    ∃ b, relocsBytes o ix s.outRelocs = some b ∧ At bs ((ss.take k).map fun s => s.outRelocs.length * 8).sum b := by
  induction ss generalizing bs k with
  | nil => simp at hk
  | cons x ss ih =>
    simp only [List.flatMap_cons] at h
    obtain ⟨p, q, e1, e2, e3⟩ := relocsBytes_append h
    cases k with
    | zero =>
      simp only [List.getElem?_cons_zero, Option.some.injEq] at hk
      subst hk
      exact ⟨p, e1, [], q, by simp [e3], rfl⟩
    | succ k =>
      simp only [List.getElem?_cons_succ] at hk
      obtain ⟨b, h1, h2⟩ := ih e2 hk
      refine ⟨b, h1, ?_⟩
      have := h2.append_left p
      rw [relocsBytes_length e1] at this
      simp only [List.take_succ_cons, List.map_cons, List.sum_cons]
      rw [e3, Nat.mul_comm]
      exact this

theorem relocs_total (ss : List Sect) : (ss.flatMap Sect.outRelocs).length * 8 = (ss.map fun s => s.outRelocs.length * 8).sum := by
  induction ss with
  | nil => rfl
  | cons s ss ih => simp only [List.flatMap_cons, List.length_append, List.map_cons, List.sum_cons, Nat.add_mul, ih]

/-! ### Symbols -/

theorem countSyms_total (o : Obj) (ss : List Sym) (i : Nat) : (countSyms o i ss).2 = i + (ss.filter o.listed).length := by
  induction ss generalizing i with
  | nil => rfl
  | cons s ss ih =>
    unfold countSyms
    rw [puts_listed]
    by_cases h : o.listed s = true
    · rw [if_pos h, List.filter_cons_of_pos h]
      simp only [ih, List.length_cons]; omega
    · rw [if_neg h, List.filter_cons_of_neg h]
      simp only [ih]

theorem countSyms_index (o : Obj) (ss : List Sym) (i n : Nat) {s : Sym} (hs : ss[n]? = some s) :
    (countSyms o i ss).1[n]? = some (if o.listed s then some (i + ((ss.take n).filter o.listed).length) else none) := by
  induction ss generalizing i n with
  | nil => simp at hs
  | cons x ss ih =>
    unfold countSyms
    rw [puts_listed]
    cases n with
    | zero =>
      simp only [List.getElem?_cons_zero, Option.some.injEq] at hs
      subst hs
      by_cases h : o.listed x = true <;> simp [h]
    | succ n =>
      simp only [List.getElem?_cons_succ] at hs
      by_cases h : o.listed x = true
      · rw [if_pos h]
        simp only [List.getElem?_cons_succ, List.take_succ_cons, List.filter_cons_of_pos h, List.length_cons]
        rw [ih _ _ hs]
        congr 3
        omega
      · rw [if_neg h]
        simp only [List.getElem?_cons_succ, List.take_succ_cons, List.filter_cons_of_neg h]
        rw [ih _ _ hs]

theorem nsyms_eq (o : Obj) : o.nsyms = (o.syms.filter o.listed).length := by
  unfold Obj.nsyms; rw [countSyms_total]; omega

/-- The size of a symbol. -/
def Obj.nsize (o : Obj) : Nat := if o.wide then 16 else 12

theorem symBytes_length (o : Obj) (s : Sym) (str : Nat) : (symBytes o s str).length = o.nsize := by
  unfold symBytes Obj.nsize; cases hw : o.wide <;> simp [le_length, long_length, hw]

theorem symsBytes_length (o : Obj) (ss : List Sym) (str : Nat) : (symsBytes o ss str).length = o.nsize * (ss.filter o.listed).length := by
  induction ss generalizing str with
  | nil => rfl
  | cons s ss ih =>
    unfold symsBytes
    rw [puts_listed]
    by_cases h : o.listed s = true
    · rw [if_pos h, List.filter_cons_of_pos h, List.length_append, symBytes_length, ih, List.length_cons, Nat.mul_add]; omega
    · rw [if_neg h, List.filter_cons_of_neg h, ih]

theorem globalName_want (o : Obj) (s : Sym) : o.globalName s = o.wantName s := by
  unfold Obj.globalName Obj.wantName
  cases s.glob <;> cases s.common <;> cases s.ext <;> rfl

theorem symStrs_length (o : Obj) (ss : List Sym) :
    (symStrs o ss).length = ((ss.filter o.listed).map fun s => (o.globalName s).length + 1).sum := by
  induction ss with
  | nil => rfl
  | cons s ss ih =>
    unfold symStrs
    rw [puts_listed]
    by_cases h : o.listed s = true
    · rw [if_pos h, List.filter_cons_of_pos h]; simp [ih]; omega
    · rw [if_neg h, List.filter_cons_of_neg h]; simp [ih]

theorem strLength_eq (o : Obj) : o.strLength = ([(0 : Byte)] ++ symStrs o o.syms).length := by
  unfold Obj.strLength
  rw [List.length_append, symStrs_length]
  rfl

/-- A symbol in the table, and its name. -/
theorem syms_at (o : Obj) (ss : List Sym) (str n : Nat) {s : Sym} (hs : ss[n]? = some s) (hl : o.listed s = true) :
    ∃ p, At (symStrs o ss) p (o.globalName s ++ [0]) ∧
      At (symsBytes o ss str) (o.nsize * ((ss.take n).filter o.listed).length) (symBytes o s (str + p)) := by
  induction ss generalizing str n with
  | nil => simp at hs
  | cons x ss ih =>
    unfold symStrs symsBytes
    rw [puts_listed]
    cases n with
    | zero =>
      simp only [List.getElem?_cons_zero, Option.some.injEq] at hs
      subst hs
      rw [if_pos hl, if_pos hl]
      exact ⟨0, ⟨[], _, rfl, rfl⟩, by simp only [Nat.add_zero, List.take_zero, List.filter_nil, List.length_nil, Nat.mul_zero]; exact ⟨[], _, rfl, rfl⟩⟩
    | succ n =>
      simp only [List.getElem?_cons_succ] at hs
      by_cases h : o.listed x = true
      · rw [if_pos h, if_pos h]
        obtain ⟨p, h1, h2⟩ := ih (str + ((o.globalName x).length + 1)) n hs
        refine ⟨(o.globalName x ++ [0]).length + p, h1.append_left _, ?_⟩
        have := h2.append_left (symBytes o x str)
        rw [symBytes_length] at this
        simp only [List.take_succ_cons, List.filter_cons_of_pos h, List.length_cons, List.length_append, List.length_nil]
        rw [Nat.mul_add, Nat.mul_one, Nat.add_comm (o.nsize * _)]
        rw [show str + ((o.globalName x).length + (0 + 1) + p) = str + ((o.globalName x).length + 1) + p by omega]
        exact this
      · rw [if_neg h, if_neg h]
        obtain ⟨p, h1, h2⟩ := ih str n hs
        refine ⟨p, by simpa using h1, ?_⟩
        simp only [List.take_succ_cons, List.filter_cons_of_neg h]
        exact h2

/-! ### The file -/

/-- The parts of a file. -/
structure Parts (o : Obj) (r : Result) where
  rs : List Byte
  pad : Nat
  rels : relocsBytes o (countSyms o 0 o.syms).1 (o.sects.flatMap Sect.outRelocs) = some rs
  file : r.file = o.front ++ (o.data ++ (List.replicate pad 0 ++ (rs ++ (symsBytes o o.syms 1 ++ ([0] ++ symStrs o o.syms)))))
  base : o.headSize + o.data.length + pad = o.relBase
  errors : r.errors = o.errors

theorem align4_ge (x : Nat) : x ≤ align4 x := by unfold align4; omega

theorem output_parts {r : Result} (h : output o = some r) : Nonempty (Parts o r) := by
  unfold output at h
  split at h
  · cases h
  · rename_i rs hrs
    simp only [Option.some.injEq] at h
    subst h
    refine ⟨⟨rs, o.relBase - (o.headSize + o.data.length), hrs, ?_, ?_, rfl⟩⟩
    · simp only [front_length, List.length_append, List.length_replicate]
      rw [List.drop_append, List.drop_of_length_le (by simp)]
      simp
    · have := align4_ge (o.headSize + o.data.length)
      unfold Obj.relBase; omega

end Verif.Macho
