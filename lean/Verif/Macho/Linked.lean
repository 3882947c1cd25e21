import Verif.Macho.Read
import Verif.Macho.Link
import Mathlib.Tactic.Ring
import Mathlib.Tactic.Positivity
/-
What the linker makes of a reference.
-/
namespace Verif.Macho
open Verif.Elf (Byte Name Num)

variable {o : Obj} {r : Result}

theorem relocsBytes_some {ix : List (Option Nat)} {rs : List Reloc} {bs : List Byte} (h : relocsBytes o ix rs = some bs) {q : Reloc}
    (hq : q ∈ rs) : ∃ n, relocSym o ix q = some n := by
  induction rs generalizing bs with
  | nil => cases hq
  | cons x rs ih =>
    simp only [relocsBytes] at h
    split at h
    · rename_i c d e1 e2
      rcases List.mem_cons.mp hq with rfl | hq
      · unfold relocBytes at e1
        split at e1
        · rename_i n hn; exact ⟨n, hn⟩
        · cases e1
      · exact ih e2 hq
    · cases h

theorem countSyms_length (o : Obj) (ss : List Sym) (i : Nat) : (countSyms o i ss).1.length = ss.length := by
  induction ss generalizing i with
  | nil => rfl
  | cons s ss ih => unfold countSyms; split <;> simp [ih]

/-- A relocation to a symbol is only written if that symbol is in the table. -/
theorem Parts.listed (p : Parts o r) {s : Sect} (hs : s ∈ o.sects) {q : Reloc} (hq : q ∈ s.outRelocs) (he : q.ext = true) {x : Sym}
    (hx : o.syms[q.sym]? = some x) : o.listed x = true := by
  obtain ⟨n, hn⟩ := relocsBytes_some p.rels (List.mem_flatMap.mpr ⟨s, hs, hq⟩)
  unfold relocSym at hn
  rw [if_pos he] at hn
  have := countSyms_index o o.syms 0 q.sym hx
  by_contra hc
  rw [if_neg hc] at this
  rw [this] at hn
  cases hn

theorem wantType_kind (s : Sym) : s.wantType / 2 % 8 = match s.kind with | .label _ _ => 7 | .equ _ => 1 | .other => 0 := by
  unfold Sym.wantType
  cases s.kind <;> (simp only; split <;> split <;> rfl)

theorem toNat_same (v : Int) (w : Nat) : ∃ c : Int, ((v % 2 ^ w).toNat : Int) = v + 2 ^ w * c := by
  refine ⟨-(v / 2 ^ w), ?_⟩
  have h := Int.emod_nonneg v (b := 2 ^ w) (by positivity)
  rw [Int.toNat_of_nonneg h, Int.emod_def]
  ring

/-- The address that the linker finds for a symbol of the object. -/
theorem Parts.symbol_address (p : Parts o r) (hk : ObjOk o) (hf : r.file.length < 2 ^ 32) (k : Linker) {n : Nat} {x : Sym}
    (hn : o.syms[n]? = some x) (hl : o.listed x = true) (hx : ∀ v, x.kind ≠ .equ v) :
    symbolAt r.file (o.index n) = some (o.wantSymbol o.addr x) ∧
      ∃ c : Int, k.symbol r.file (o.wantSymbol o.addr x) = some (o.address k x + 2 ^ (if o.wide then 64 else 32) * c) := by
  refine ⟨p.symbolRead hk hf hn hl, ?_⟩
  unfold Linker.symbol
  rw [show (o.wantSymbol o.addr x).type = x.wantType from rfl, wantType_kind]
  unfold Obj.address
  cases hkd : x.kind with
  | label i off =>
    have hi := hk.labels x (List.mem_of_getElem? hn) i off hkd
    rw [if_pos rfl]
    have e : (o.wantSymbol o.addr x).sect = i + 1 := by
      show x.wantSect = _
      unfold Sym.wantSect; rw [hkd]
    rw [e, Nat.add_sub_cancel, p.sectionRead hk hf (List.getElem?_eq_getElem hi)]
    obtain ⟨c, hc⟩ := toNat_same (Obj.wantValue o.addr x) (if o.wide then 64 else 32)
    have e2 : ((o.wantSymbol o.addr x).value : Int) = Obj.wantValue o.addr x + 2 ^ (if o.wide then 64 else 32) * c := by
      rw [← hc]
      show (((Obj.wantValue o.addr x % (if o.wide then 2 ^ 64 else 2 ^ 32)).toNat : Nat) : Int) = _
      cases o.wide <;> rfl
    have e3 : Obj.wantValue o.addr x = o.addr i + off := by unfold Obj.wantValue; rw [hkd]
    refine ⟨c, ?_⟩
    show some (k.addr i + (((o.wantSymbol o.addr x).value : Int) - (o.wantSection (o.addr i) o.sects[i]).addr)) = _
    rw [e2, e3]
    show some (k.addr i + ((o.addr i : Int) + off + 2 ^ (if o.wide then 64 else 32) * c - (o.addr i : Int))) = _
    congr 1
    ring
  | equ v => exact absurd hkd (hx v)
  | other =>
    refine ⟨0, ?_⟩
    rw [if_neg (by decide), if_neg (by decide)]
    show some (k.ext (o.wantName x)) = _
    simp

/-- What the value function has made. -/
theorem outputValue_eq {v : Val} {l : Loc} {n : Nat} {x : Sym} {stored : Int} {rl : Reloc} (hn : v.rel = some n) (hx : o.syms[n]? = some x)
    (h : outputValue o v l = .ok stored (some rl)) :
    ∃ len t, sizeCode v.size = some len ∧ relocType o v l = some t ∧ stored = offsetOf o v l x + v.added ∧
      rl = ⟨n, l.bc + l.offset, v.curposRel, len, o.wide || x.ext || x.common, t⟩ := by
  unfold outputValue at h
  split at h
  · cases h
  · rw [hn] at h
    simp only [hx] at h
    cases hc : sizeCode v.size with
    | none => rw [hc] at h; cases h
    | some len =>
      rw [hc] at h
      simp only at h
      split at h
      · cases h
      · cases ht : relocType o v l with
        | none => rw [ht] at h; cases h
        | some t =>
          rw [ht] at h
          simp only at h
          unfold addAbs at h
          split at h
          · cases h
          · rename_i i hi
            injection h with h1 h2
            injection h2 with h2
            refine ⟨len, t, rfl, rfl, ?_, h2.symm⟩
            unfold Val.added
            split at hi
            · rename_i ha; cases hi; rw [ha]; simp [← h1]
            · rename_i a ha; cases hi; rw [ha]; exact h1.symm
            · cases hi

theorem sizeCode_size {n len : Nat} (h : sizeCode n = some len) : 8 * 2 ^ len = n ∧ n ≤ 64 := by
  unfold sizeCode at h
  split at h <;> first | (cases h; exact ⟨rfl, by decide⟩) | cases h

theorem pow_dvd_mul {a b : Nat} (h : a ≤ b) (c : Int) : (2 ^ a : Int) ∣ 2 ^ b * c :=
  Dvd.dvd.mul_right (pow_dvd_pow 2 h) c

theorem addr_here (p : Parts o r) (hk : ObjOk o) (hf : r.file.length < 2 ^ 32) {j : Nat} {s : Sect} (hj : o.sects[j]? = some s) :
    ∃ sec, sectionAt r.file j = some sec ∧ sec.addr = o.addr j ∧ sec.rels = s.rels.map o.wantRel :=
  ⟨_, p.sectionRead hk hf hj, rfl, rfl⟩

/-- For x86-64. -/
theorem Parts.linked64 (p : Parts o r) (hk : ObjOk o) (hf : r.file.length < 2 ^ 32) (hw : o.wide = true) {j : Nat} {s : Sect}
    (hj : o.sects[j]? = some s) {v : Val} {l : Loc} {n : Nat} {x : Sym} {stored : Int} {rl : Reloc} (hn : v.rel = some n)
    (hx : o.syms[n]? = some x) (hkd : ∀ u, x.kind ≠ .equ u) (h : outputValue o v l = .ok stored (some rl)) (hm : rl ∈ s.rels)
    (hs : s.rels = s.outRelocs) (hb : v.curposRel = true → l.bytes = 4) (k : Linker) :
    ∃ res, k.resolve r.file j (o.wantRel rl) stored = some res ∧ SameField v.size res (o.asked k v x j l) := by
  obtain ⟨len, t, h1, h2, h3, h4⟩ := outputValue_eq hn hx h
  have he : rl.ext = true := by rw [h4]; simp [hw]
  have hsym : rl.sym = n := by rw [h4]
  have hlist := p.listed (List.mem_of_getElem? hj) (hs ▸ hm) he (by rw [hsym]; exact hx)
  obtain ⟨y1, c, y2⟩ := p.symbol_address hk hf k hx hlist hkd
  rw [hw, if_pos rfl] at y2
  obtain ⟨sec, s1, s2, s3⟩ := addr_here p hk hf hj
  have hnum : (o.wantRel rl).num = o.index n := by
    show o.wantNum rl = _
    unfold Obj.wantNum; rw [if_pos he, hsym]
  have hsz := (sizeCode_size h1).2
  unfold Linker.resolve
  rw [p.hdr hk]
  simp only [Option.bind_eq_bind, Option.bind_some]
  rw [s1]
  simp only [Option.bind_some]
  rw [show o.hdr.wide = true from hw, if_pos rfl, show (o.wantRel rl).ext = true from he, guard, if_pos rfl, hnum, y1]
  simp only [Option.pure_def, Option.bind_some]
  rw [y2]
  simp only [Option.bind_some]
  have e1 : (o.wantRel rl).type = t := by show rl.type = _; rw [h4]
  have e2 : (o.wantRel rl).pcrel = v.curposRel := by show rl.pcrel = _; rw [h4]
  have e3 : (o.wantRel rl).addr = l.bc + l.offset := by show rl.addr = _; rw [h4]
  rw [e1, e2, e3]
  unfold relocType at h2
  unfold offsetOf at h3
  rw [hw] at h3
  simp only [Bool.or_true, if_true] at h3
  unfold Obj.asked SameField
  have dv := pow_dvd_mul hsz c
  by_cases hc : v.curposRel = true
  · have hb := hb hc
    rw [hc, hb] at h3
    simp only [if_true, Int.add_zero] at h3
    rw [hc]
    by_cases hg : v.wrt = some true
    · rw [if_pos ⟨hc, hg, hw⟩] at h2
      have ht : t = 3 ∨ t = 4 := by
        simp only [Option.some.injEq] at h2
        split at h2 <;> omega
      refine ⟨_, by rcases ht with rfl | rfl <;> exact rfl, ?_⟩
      rw [if_pos hg]
      show (2 ^ v.size : Int) ∣ _
      simp only [if_true]
      rw [h3]
      refine ⟨0, ?_⟩
      show k.got (o.wantName x) + _ - _ - _ = _
      push_cast
      ring
    · rw [if_neg (fun hh => hg hh.2.1)] at h2
      split at h2
      · cases h2
      · rename_i hwr
        try rw [if_pos hc, hw, if_pos rfl] at h2
        have ht : t = 1 ∨ t = 2 := by
          simp only [Option.some.injEq] at h2
          split at h2 <;> omega
        refine ⟨_, by rcases ht with rfl | rfl <;> exact rfl, ?_⟩
        rw [if_neg hg]
        simp only [if_true]
        rw [h3]
        have : o.address k x + 2 ^ 64 * c + ((l.offset : Int) + (4 : Nat) + v.added) - (k.addr j + ((l.bc + l.offset : Nat) : Int) + 4)
            - (o.address k x + v.added - (k.addr j + (l.bc : Int))) = 2 ^ 64 * c := by push_cast; ring
        rw [this]
        exact dv
  · rw [if_neg hc] at h3
    have hc' : v.curposRel = false := by simpa using hc
    rw [hc']
    rw [if_neg (fun hh => hc hh.1)] at h2
    split at h2
    · cases h2
    · rename_i hwr
      have hg : ¬ v.wrt = some true := by intro hh; rw [hh] at hwr; simp at hwr
      try rw [if_neg hc] at h2
      split at h2
      · cases h2
      · cases h2
        refine ⟨_, rfl, ?_⟩
        rw [if_neg hg]
        simp only [Bool.false_eq_true, if_false]
        rw [h3]
        have : o.address k x + 2 ^ 64 * c + (0 + 0 + v.added) - (o.address k x + v.added - 0) = 2 ^ 64 * c := by ring
        rw [this]
        exact dv

/-- For i386: what the linker makes of a relative field is more than what is asked for by the address of its section in the object. -/
theorem Parts.linked32 (p : Parts o r) (hk : ObjOk o) (hf : r.file.length < 2 ^ 32) (hw : o.wide = false) {j : Nat} {s : Sect}
    (hj : o.sects[j]? = some s) {v : Val} {l : Loc} {n : Nat} {x : Sym} {stored : Int} {rl : Reloc} (hn : v.rel = some n)
    (hx : o.syms[n]? = some x) (hkd : (∃ i off, x.kind = .label i off) ∨ (x.kind = .other ∧ (x.ext = true ∨ x.common = true)))
    (h : outputValue o v l = .ok stored (some rl)) (hm : rl ∈ s.rels) (hs : s.rels = s.outRelocs) (hb : v.size ≤ 32)
    (hec : ∀ i off, x.kind = .label i off → x.ext = false ∧ x.common = false) (k : Linker) :
    ∃ res, k.resolve r.file j (o.wantRel rl) stored = some res ∧
      SameField v.size res (o.asked k v x j l + if v.curposRel then (o.addr j : Int) else 0) := by
  obtain ⟨len, t, h1, h2, h3, h4⟩ := outputValue_eq hn hx h
  have hsym : rl.sym = n := by rw [h4]
  obtain ⟨sec, s1, s2, s3⟩ := addr_here p hk hf hj
  have e1 : (o.wantRel rl).type = t := by show rl.type = _; rw [h4]
  have e2 : (o.wantRel rl).pcrel = v.curposRel := by show rl.pcrel = _; rw [h4]
  have e4 : (o.wantRel rl).ext = (x.ext || x.common) := by show rl.ext = _; rw [h4, hw]; simp
  have ht : t = 0 ∧ v.wrt ≠ some true := by
    unfold relocType at h2
    rw [hw] at h2
    simp only [Bool.false_eq_true, and_false, if_false, false_and] at h2
    split at h2
    · cases h2
    · rename_i hwr
      refine ⟨?_, by intro hh; rw [hh] at hwr; simp at hwr⟩
      split at h2 <;> (cases h2; rfl)
  unfold Linker.resolve
  rw [p.hdr hk]
  simp only [Option.bind_eq_bind, Option.bind_some]
  rw [s1]
  simp only [Option.bind_some]
  rw [show o.hdr.wide = false from hw, if_neg (by decide), e1, if_neg (by simp [ht.1]), e2, e4, s2]
  unfold offsetOf at h3
  rw [hw] at h3
  simp only [Bool.false_eq_true, if_false, Bool.or_false] at h3
  unfold Obj.asked SameField
  rw [if_neg ht.2]
  rcases hkd with ⟨i, off, hi⟩ | ⟨hi, hex⟩
  · obtain ⟨hx1, hx2⟩ := hec i off hi
    rw [hx1, hx2] at h3 ⊢
    rw [hi] at h3
    simp only [Bool.or_self, Bool.false_eq_true, if_false] at h3 ⊢
    have hnum : (o.wantRel rl).num = i + 1 := by
      show o.wantNum rl = _
      unfold Obj.wantNum
      rw [if_neg (by show ¬ (o.wantRel rl).ext = true; rw [e4, hx1, hx2]; simp), hsym, hx]
      simp only [hi]
    rw [hnum, if_neg (by omega), Nat.add_sub_cancel, p.sectionRead hk hf (List.getElem?_eq_getElem (hk.labels x (List.mem_of_getElem? hx) i off hi))]
    refine ⟨_, rfl, 0, ?_⟩
    show stored + (k.addr i - (o.addr i : Int)) - _ - _ = _
    unfold Obj.address
    rw [hi, h3]
    cases v.curposRel <;> simp <;> ring
  · have hext : (x.ext || x.common) = true := by rcases hex with h | h <;> simp [h]
    rw [hext] at h3 ⊢
    simp only [if_true] at h3 ⊢
    have he : rl.ext = true := by rw [← hext, ← e4]; rfl
    have hlist := p.listed (List.mem_of_getElem? hj) (hs ▸ hm) he (by rw [hsym]; exact hx)
    obtain ⟨y1, c, y2⟩ := p.symbol_address hk hf k hx hlist (by intro u hu; rw [hi] at hu; cases hu)
    rw [hw, if_neg (by decide)] at y2
    have hnum : (o.wantRel rl).num = o.index n := by
      show o.wantNum rl = _
      unfold Obj.wantNum; rw [if_pos he, hsym]
    rw [hnum, y1]
    simp only [Option.bind_some]
    rw [y2]
    refine ⟨_, rfl, ?_⟩
    rw [h3]
    have dv := pow_dvd_mul hb c
    have : ∀ m : Int, o.address k x + 2 ^ 32 * c + ((if v.curposRel = true then -(l.bc : Int) else 0) + 0 + v.added) -
        (if v.curposRel = true then k.addr j - (o.addr j : Int) else 0) -
        (o.address k x + v.added - (if v.curposRel = true then k.addr j + (l.bc : Int) else 0) + if v.curposRel = true then (o.addr j : Int) else 0)
        = 2 ^ 32 * c := by intro _; cases v.curposRel <;> simp <;> ring
    rw [this 0]
    exact dv

end Verif.Macho
