import Verif.Coff.Read
import Verif.Coff.Link
/-
The relocations make a linker put into a field what the program asks for.
-/
set_option linter.unusedSimpArgs false
namespace Verif.Coff
open Verif.Elf (Byte Name Num number slice field string le At le_length)

variable {o : Obj}

theorem listed_glob {x : Sym} (h : x.glob = true) : o.listed x = true := by simp [Obj.listed, h]
theorem listed_ext {x : Sym} (h : x.ext = true) : o.listed x = true := by simp [Obj.listed, h]
theorem listed_common {x : Sym} (h : x.common = true) : o.listed x = true := by simp [Obj.listed, h]
theorem listed_win64 {x : Sym} (h : o.format = .win64) : o.listed x = true := by simp [Obj.listed, h]

theorem label_eq {n k off : Nat} (h : o.label n = some (k, off)) : ∃ x, o.syms[n]? = some x ∧ x.kind = .label k off := by
  unfold Obj.label at h
  split at h
  · rename_i s hs
    split at h
    · rename_i k' off' hk; cases h; exact ⟨s, hs, hk⟩
    · cases h
  · cases h

theorem label_none {n : Nat} {x : Sym} (hx : o.syms[n]? = some x) (h : o.label n = none) : ∀ k off, x.kind ≠ .label k off := by
  intro k off hk
  unfold Obj.label at h
  rw [hx] at h
  simp only [hk] at h
  cases h

theorem sectionSym_kind {k n : Nat} (h : o.sectionSym k = some n) : ∃ x, o.syms[n]? = some x ∧ x.kind = .label k 0 := by
  unfold Obj.sectionSym at h
  split at h
  · rw [List.findIdx?_eq_some_iff_getElem] at h
    obtain ⟨h1, h2, _⟩ := h
    simp only [Bool.and_eq_true, decide_eq_true_eq] at h2
    exact ⟨_, List.getElem?_eq_getElem h1, h2.1⟩
  · cases h

/-- What a linker makes of a label's symbol. -/
theorem label_value (ho : ObjOk o) (k : Linker) {n i off : Nat} {x : Sym} (hx : o.syms[n]? = some x) (hl : o.listed x = true)
    (hk : x.kind = .label i off) :
    k.value o.format.win (o.wantSymbol x) = k.addr (i + 1) + off ∧ (o.wantSymbol x).place = .sect (i + 1) := by
  obtain ⟨h1, h2⟩ := (ho.syms x (List.mem_of_getElem? hx) hl).label i off hk
  have h3 := ho.sects.number
  have e : (o.wantSymbol x).sect = i + 1 := by simp [Obj.wantSymbol, Sym.wantSect, hk]
  have e2 : (o.wantSymbol x).place = .sect (i + 1) := by
    unfold Symbol.place
    rw [e, if_neg (by omega), if_neg (by omega)]
  refine ⟨?_, e2⟩
  unfold Linker.value
  rw [e2]
  simp only [Obj.wantSymbol, Sym.wantValue, hk]
  omega

/-- The target of a relocation: its symbol with what is added is the symbol the value refers to. -/
theorem target_ok (ho : ObjOk o) (hr : RefOk o) (k : Linker) {n : Nat} {x : Sym} (hx : o.syms[n]? = some x)
    (refers : x.kind = .other → x.ext = true ∨ x.common = true) (hl : ∀ v b, x.kind = .equ v b → o.listed x = true)
    {wrt : Option Wrt} {m : Nat} {dist : Int} (h1 : wrtTarget o n wrt = some (m, dist)) {t : Nat} {val : Int}
    (h2 : target o x m = some (t, val)) :
    ∃ y, o.syms[t]? = some y ∧ o.listed y = true ∧ k.value o.format.win (o.wantSymbol y) + (val + dist) = o.address k x ∧
      (o.wantSymbol y).place = o.place x ∧ (wrt = none → dist = 0) := by
  have hmem : x ∈ o.syms := List.mem_of_getElem? hx
  have hd : wrt = none → dist = 0 := by
    intro h; rw [h] at h1; cases h1; rfl
  -- labels
  have lab : ∀ i off, x.kind = .label i off → ∃ xm offm, o.syms[m]? = some xm ∧ xm.kind = .label i offm ∧ (offm : Int) + dist = off := by
    intro i off hk
    unfold wrtTarget at h1
    split at h1
    · cases h1; exact ⟨x, off, hx, hk, by omega⟩
    · cases h1; exact ⟨x, off, hx, hk, by omega⟩
    · split at h1
      · rename_i _ k1 off1 k2 off2 e1 e2
        split at h1
        · rename_i he
          cases h1
          obtain ⟨x1, g1, g2⟩ := label_eq e1
          obtain ⟨x2, g3, g4⟩ := label_eq e2
          rw [hx] at g1; cases g1
          rw [hk] at g2; cases g2
          exact ⟨x2, off2, g3, by rw [g4, ← he], by omega⟩
        · cases h1
      · cases h1
  have nolab : (∀ i off, x.kind ≠ .label i off) → m = n ∧ dist = 0 := by
    intro hk
    unfold wrtTarget at h1
    split at h1
    · cases h1; exact ⟨rfl, rfl⟩
    · cases h1; exact ⟨rfl, rfl⟩
    · split at h1
      · rename_i _ k1 off1 k2 off2 e1 e2
        obtain ⟨x1, g1, g2⟩ := label_eq e1
        rw [hx] at g1; cases g1
        exact absurd g2 (hk _ _)
      · cases h1
  rcases hkind : x.kind with ⟨i, off⟩ | ⟨v, b⟩ | _
  · -- a label
    obtain ⟨xm, offm, g1, g2, g3⟩ := lab i off hkind
    have hc : x.common = false := by
      rcases h : x.common with _ | _
      · rfl
      · rw [(hr.common x hmem h).1] at hkind; cases hkind
    have he : x.ext = false := by
      rcases h : x.ext with _ | _
      · rfl
      · rw [hr.ext x hmem h] at hkind; cases hkind
    have haddr : o.address k x = k.addr (i + 1) + off := by simp [Obj.address, hkind]
    have hplace : o.place x = .sect (i + 1) := by simp [Obj.place, hkind]
    unfold target at h2
    rw [hc, he] at h2
    by_cases hw : o.format = .win64
    · simp only [hw, Bool.false_eq_true, if_false, Bool.not_false, decide_true, Bool.not_true, Bool.and_false] at h2
      cases h2
      have hlm := listed_win64 (o := o) (x := xm) hw
      obtain ⟨v1, v2⟩ := label_value ho k g1 hlm g2
      exact ⟨xm, g1, hlm, by rw [v1, haddr]; omega, by rw [v2, hplace], hd⟩
    · have hlab : o.label m = some (i, offm) := by unfold Obj.label; rw [g1]; simp only [g2]
      simp only [hw, Bool.false_eq_true, if_false, Bool.not_false, decide_false, Bool.and_true, if_true, hlab] at h2
      rcases hs : o.sectionSym i with _ | q
      · rw [hs] at h2; cases h2
      · rw [hs] at h2
        simp only [Option.map_some, Option.some.injEq, Prod.mk.injEq] at h2
        obtain ⟨rfl, rfl⟩ := h2
        obtain ⟨y, y1, y2⟩ := sectionSym_kind hs
        have hi : i < o.sects.length := by
          unfold Obj.sectionSym at hs
          split at hs
          · rename_i z hz; exact (List.getElem?_eq_some_iff.mp hz).1
          · cases hs
        obtain ⟨q', x', z1, z2, z3⟩ := hr.sects i hi
        rw [hs] at z1; cases z1
        rw [y1] at z2; cases z2
        have hly := listed_glob (o := o) z3
        obtain ⟨v1, v2⟩ := label_value ho k y1 hly y2
        refine ⟨y, y1, hly, ?_, by rw [v2, hplace], hd⟩
        rw [v1, haddr]
        omega
  · -- an EQU
    obtain ⟨rfl, rfl⟩ := nolab (by intro i off h; rw [hkind] at h; cases h)
    have hl' : o.listed x = true := hl _ _ hkind
    have hc : x.common = false := by
      rcases h : x.common with _ | _
      · rfl
      · rw [(hr.common x hmem h).1] at hkind; cases hkind
    have hlab : o.label m = none := by unfold Obj.label; rw [hx]; simp only [hkind]
    have ht : t = m ∧ val = 0 := by
      unfold target at h2
      rw [hc, hlab] at h2
      simp only [Bool.false_eq_true, if_false] at h2
      split at h2 <;> (cases h2; exact ⟨rfl, rfl⟩)
    obtain ⟨rfl, rfl⟩ := ht
    obtain ⟨iv, e1, e2, e3⟩ := hr.equ x hmem v b hkind
    subst e1
    have hp : (o.wantSymbol x).place = .abs := by simp [Symbol.place, Obj.wantSymbol, Sym.wantSect, hkind]
    refine ⟨x, hx, hl', ?_, by rw [hp]; simp [Obj.place, hkind], hd⟩
    unfold Linker.value
    rw [hp]
    simp only [Obj.wantSymbol, Sym.wantValue, hkind, Obj.address]
    omega
  · -- elsewhere
    obtain ⟨rfl, rfl⟩ := nolab (by intro i off h; rw [hkind] at h; cases h)
    have hl' : o.listed x = true := by
      rcases refers hkind with h | h
      · exact listed_ext h
      · exact listed_common h
    have hlab : o.label m = none := by unfold Obj.label; rw [hx]; simp only [hkind]
    have hsect : (o.wantSymbol x).sect = 0 := by
      rcases refers hkind with h | h <;> simp [Obj.wantSymbol, Sym.wantSect, hkind, h]
    have hp : (o.wantSymbol x).place = .ext (o.wantName x) := by
      unfold Symbol.place; rw [if_pos hsect]; rfl
    have haddr : o.address k x = k.ext (o.wantName x) := by simp [Obj.address, hkind]
    refine ⟨x, ?_, hl', ?_, by rw [hp]; simp [Obj.place, hkind], hd⟩
    · unfold target at h2
      simp only [hlab] at h2
      (repeat' split at h2) <;> first | (cases h2; exact hx) | (cases h2; done)
    · unfold Linker.value
      rw [hp, haddr]
      simp only
      unfold target at h2
      rw [hlab] at h2
      rcases hc : x.common with _ | _
      · rw [hc] at h2
        have hv : val = 0 := by
          simp only [Bool.false_eq_true, if_false] at h2
          split at h2 <;> (cases h2; rfl)
        have hwv : (o.wantSymbol x).value = 0 := by simp [Obj.wantSymbol, Sym.wantValue, hkind, hc]
        rw [hv, hwv]
        split <;> omega
      · rw [hc] at h2
        simp only [if_true] at h2
        rcases hw : o.format.win with _ | _
        · rw [hw] at h2
          simp only [Bool.false_eq_true, if_false] at h2
          split at h2
          · rename_i c hcs
            split at h2
            · cases h2
            · rename_i hneg
              cases h2
              have hlt := (hr.common x hmem hc).2 c hcs
              have e : (o.wantSymbol x).value = c.toNat := by
                simp only [Obj.wantSymbol, Sym.wantValue, hkind, hc, if_true, hcs]
                omega
              have e2 : getUint c = c.toNat := by
                unfold getUint
                rw [if_neg hneg, if_pos (by omega)]
              rw [e, e2]
              simp only [Bool.false_eq_true, if_false]
              omega
          · cases h2
        · rw [hw] at h2
          simp only [if_true] at h2
          cases h2
          simp

/-- The number a linker computes is the one asked for. -/
theorem linked (hfm : o.format ≠ .coff true) (k : Linker) {v : Val} {l : Loc} {nobase : Bool} {t : Nat}
    (ht : relocType o.format v l (nobase || decide (v.wrt = some .imagebase)) = some t) (hwide : v.Wide o.format nobase)
    (hbytes : 8 * l.bytes = v.size)
    (hcx : ¬ ((v.segOf && (v.wrt.isSome || v.curposRel)) = true) ∧ ¬ ((v.sectionRel && (v.wrt.isSome || v.curposRel)) = true))
    {x : Sym} {y : Symbol} {val dist i : Int} (hval : k.value o.format.win y + (val + dist) = o.address k x) (hplace : y.place = o.place x)
    (hdist : v.wrt = none → dist = 0)
    (hi : addAbs (if v.segOf then 0 else val + curpos o.format v l) v.abs = some i) (j : Nat) :
    ∃ f, o.format.formula t = some f ∧ f.bits = v.size ∧
      k.result o.format.win f y (i + dist) (j + 1) (l.bc + l.offset) = o.asked k nobase v x j l := by
  have hadd : i = (if v.segOf then 0 else val + curpos o.format v l) + v.added := by
    unfold addAbs at hi
    unfold Val.added
    rcases ha : v.abs with _ | ⟨a⟩ | _ <;> rw [ha] at hi <;> first | (cases hi; simp; done) | (cases hi; done)
  unfold relocType at ht
  unfold Val.Wide Val.asks at hwide
  unfold Obj.asked Val.asks
  by_cases hc : v.curposRel = true
  · -- relative
    have hseg : v.segOf = false := by
      have := hcx.1; rw [hc] at this; rcases h : v.segOf with _ | _
      · rfl
      · rw [h] at this; simp at this
    have hsr : v.sectionRel = false := by
      have := hcx.2; rw [hc] at this; rcases h : v.sectionRel with _ | _
      · rfl
      · rw [h] at this; simp at this
    rw [hseg] at hadd
    simp only [Bool.false_eq_true, if_false] at hadd
    simp only [hc, if_true, hseg, hsr, Bool.false_eq_true, if_false] at ht hwide ⊢
    split at ht
    · cases ht
    · rename_i h32
      have h32 : v.size = 32 := by omega
      have hb4 : l.bytes = 4 := by omega
      rcases hf : o.format with b | _ | _
      · -- plain
        rcases b with _ | _
        · rw [hf] at ht hval hadd
          simp only [Format.amd64, Bool.false_eq_true, if_false] at ht
          cases ht
          refine ⟨⟨.addr, some 4, 32⟩, rfl, h32.symm, ?_⟩
          simp only [Linker.result, Linker.quantity, Format.win, Bool.false_eq_true, if_false]
          simp only [Format.win] at hval
          simp only [curpos, hc, Format.win, if_true, reduceCtorEq, false_and, if_false, Bool.false_eq_true] at hadd
          omega
        · exact absurd hf hfm
      · rw [hf] at ht hval hadd
        simp only [Format.amd64, Bool.false_eq_true, if_false] at ht
        cases ht
        refine ⟨⟨.addr, some 4, 32⟩, rfl, h32.symm, ?_⟩
        simp only [Linker.result, Linker.quantity, Format.win, if_true]
        simp only [Format.win] at hval
        simp only [curpos, hc, Format.win, if_true, reduceCtorEq, false_and, if_false, Bool.false_eq_true] at hadd
        push_cast
        omega
      · rw [hf] at ht hval hadd
        simp only [Format.amd64, if_true] at ht
        simp only [Format.win] at hval
        rcases hip : v.ipRel with _ | _
        · simp only [hip, Bool.not_false, if_true] at ht
          cases ht
          refine ⟨⟨.addr, some 4, 32⟩, rfl, h32.symm, ?_⟩
          simp only [Linker.result, Linker.quantity, Format.win, if_true]
          simp only [curpos, hc, hip, Format.win, if_true, and_false, if_false, Bool.false_eq_true] at hadd
          push_cast
          omega
        · simp only [hip, Bool.not_true, Bool.false_eq_true, if_false] at ht
          split at ht
          · rename_i hk5
            have hform : Format.win64.formula t = some ⟨.addr, some t, 32⟩ := by
              have : t = 4 ∨ t = 5 ∨ t = 6 ∨ t = 7 ∨ t = 8 ∨ t = 9 := by cases ht; omega
              rcases this with h | h | h | h | h | h <;> subst h <;> rfl
            have htv : t = 4 + (l.len - (l.offset + l.bytes)) := by cases ht; rfl
            refine ⟨_, hform, h32.symm, ?_⟩
            simp only [Linker.result, Linker.quantity, Format.win, if_true]
            simp only [curpos, hc, hip, if_true, and_self] at hadd
            push_cast
            omega
          · cases ht
  · -- not relative
    have hc : v.curposRel = false := by simpa using hc
    have hcur : curpos o.format v l = 0 := by simp [curpos, hc]
    rw [hcur] at hadd
    simp only [hc, Bool.false_eq_true, if_false] at ht hwide ⊢
    have plain : ∀ (q : Quantity) (f : Formula), o.format.formula t = some f → f = ⟨q, none, v.size⟩ → v.segOf = false →
        (q = .addr ∨ q = .rva ∨ q = .offset) → ∃ f, o.format.formula t = some f ∧ f.bits = v.size ∧
        k.result o.format.win f y (i + dist) (j + 1) (l.bc + l.offset) = k.quantity (o.address k x) (o.place x) q + v.added - 0 := by
      intro q f h1 h2 h3 h4
      refine ⟨f, h1, by rw [h2], ?_⟩
      rw [h2]
      simp only [Linker.result]
      rw [h3] at hadd
      simp only [Bool.false_eq_true, if_false] at hadd
      rcases h4 with h | h | h <;> subst h <;> simp only [Linker.quantity, hplace] <;> omega
    rcases hseg : v.segOf with _ | _
    · simp only [hseg, Bool.false_eq_true, if_false] at ht hwide ⊢
      rcases hsr : v.sectionRel with _ | _
      · simp only [hsr, Bool.false_eq_true, if_false] at ht hwide ⊢
        rcases hnb : (nobase || decide (v.wrt = some .imagebase)) with _ | _
        · simp only [hnb, Bool.false_eq_true, if_false] at ht hwide ⊢
          rcases ham : o.format.amd64 with _ | _
          · rw [ham] at ht hwide
            simp only [Bool.false_eq_true, if_false, or_false] at ht hwide
            cases ht
            exact plain .addr ⟨.addr, none, 32⟩ (by simp [Format.formula, ham, formula386]) (by rw [hwide]) hseg (.inl rfl)
          · rw [ham] at ht
            simp only [if_true] at ht
            split at ht
            · rename_i h32; cases ht
              exact plain .addr ⟨.addr, none, 32⟩ (by simp [Format.formula, ham, formula64]) (by rw [h32]) hseg (.inl rfl)
            · split at ht
              · rename_i h64; cases ht
                exact plain .addr ⟨.addr, none, 64⟩ (by simp [Format.formula, ham, formula64]) (by rw [h64]) hseg (.inl rfl)
              · cases ht
        · simp only [hnb, if_true] at ht hwide ⊢
          rcases ham : o.format.amd64 with _ | _
          · rw [ham] at ht
            simp only [Bool.false_eq_true, if_false] at ht
            cases ht
            exact plain .rva ⟨.rva, none, 32⟩ (by simp [Format.formula, ham, formula386]) (by rw [hwide]) hseg (.inr (.inl rfl))
          · rw [ham] at ht
            simp only [if_true, hwide] at ht
            cases ht
            exact plain .rva ⟨.rva, none, 32⟩ (by simp [Format.formula, ham, formula64]) (by rw [hwide]) hseg (.inr (.inl rfl))
      · simp only [hsr, if_true] at ht hwide ⊢
        cases ht
        rcases ham : o.format.amd64 with _ | _
        · exact plain .offset ⟨.offset, none, 32⟩ (by simp [Format.formula, ham, formula386]) (by rw [hwide]) hseg (.inr (.inr rfl))
        · exact plain .offset ⟨.offset, none, 32⟩ (by simp [Format.formula, ham, formula64]) (by rw [hwide]) hseg (.inr (.inr rfl))
    · simp only [hseg, if_true] at ht hwide ⊢
      cases ht
      have hw : v.wrt = none := by
        have := hcx.1
        rw [hseg] at this
        rcases h : v.wrt with _ | _
        · rfl
        · rw [h] at this; simp at this
      have hd := hdist hw
      rw [hseg] at hadd
      simp only [if_true] at hadd
      refine ⟨⟨.index, none, 16⟩, ?_, hwide.symm, ?_⟩
      · rcases ham : o.format.amd64 with _ | _
        · simp [Format.formula, ham, formula386]
        · simp [Format.formula, ham, formula64]
      · simp only [Linker.result, Linker.quantity, hplace]
        omega

/-- What an accepted value is. -/
theorem outputValue_eq {nobase : Bool} {v : Val} {l : Loc} {n : Nat} {x : Sym} {stored : Int} {rl : Reloc} (hn : v.rel = some n)
    (hx : o.syms[n]? = some x) (h : outputValue o nobase v l = .ok stored (some rl)) :
    (¬ ((v.segOf && (v.wrt.isSome || v.curposRel)) = true) ∧ ¬ ((v.sectionRel && (v.wrt.isSome || v.curposRel)) = true)) ∧
    ∃ m dist t val ty i, wrtTarget o n v.wrt = some (m, dist) ∧ target o x m = some (t, val) ∧
      relocType o.format v l (nobase || decide (v.wrt = some .imagebase)) = some ty ∧
      addAbs (if v.segOf then 0 else val + curpos o.format v l) v.abs = some i ∧ stored = i + dist ∧ rl = ⟨t, l.bc + l.offset, ty⟩ := by
  unfold outputValue at h
  split at h
  · cases h
  · rename_i hc
    simp only [Bool.or_eq_true, not_or] at hc
    refine ⟨⟨by simpa using hc.1.2, by simpa using hc.2⟩, ?_⟩
    rw [hn] at h
    simp only [hx] at h
    split at h
    · cases h
    · rename_i m dist h1
      split at h
      · cases h
      · rename_i t val h2
        split at h
        · cases h
        · rename_i ty h3
          split at h
          · cases h
          · rename_i i h4
            cases h
            exact ⟨m, dist, t, val, ty, i, h1, h2, h3, h4, rfl, rfl⟩

end Verif.Coff
