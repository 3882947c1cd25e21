import Verif.Elf.Reloc
/-
What a linker makes of the relocations of the file.
-/
set_option linter.unusedSimpArgs false
set_option linter.unusedSectionVars false
namespace Verif.Elf

theorem relocType_lt {m : Machine} {r : Reloc} {t : Nat} (h : m.relocType r = some t) : t < 256 := by
  unfold Machine.relocType at h
  split at h
  · split at h
    · cases h
    · rename_i k _ s hs
      split at h
      · cases h
      · have hall : ∀ x ∈ m.ssyms, x.reloc < 256 := by cases m <;> decide
        have := hall s (List.mem_of_getElem? hs)
        split at h <;> cases h <;> omega
  · split at h
    · rename_i t' ht
      subst h
      split at ht
      · unfold Machine.gotType at ht
        split at ht <;> simp_all <;> omega
      · cases ht
    · unfold Machine.plainType at h
      split at h <;> simp_all <;> omega

section
variable {o : Obj} {st : St} {r : Result} (L : Layout o st r) {ls gs : List Nat} (I : Inv o.src st (finals o) ls gs)
variable (hg : ObjOk o) (hf : r.file.length < 2 ^ 32) (he : r.errors = 0)
include L I hg hf he

theorem Layout.relRead (hn : o.machine.wide = false → r.file.length < 2 ^ 28) {j : Nat} {s : Sect} (hj : o.sects[j]? = some s) :
    s.rels ≠ [] → ∃ bs, sectionAt r.file (o.sectIndex j + 1) = some ⟨o.machine.relPrefix ++ s.name, o.machine.relType, 0,
      s.rels.length * o.machine.relSize, 3, o.sectIndex j, o.machine.relAlign, o.machine.relSize, bs⟩ ∧
    ∀ i rl, s.rels[i]? = some rl → (∃ x, o.syms[rl.sym]? = some x ∧ o.listed rl.sym x = true) →
      ∃ t, o.machine.relocType rl = some t ∧
        relAt o.machine.wide (decide (o.machine ≠ .x86)) bs i =
          some ⟨rl.addr, posOf ls gs rl.sym, t, o.machine.wantAddend rl.addend⟩ := by
  intro hne
  obtain ⟨bs, h1, h2, _⟩ := L.relSectionRead hg.toSectsOk hf hj hne
  refine ⟨bs, h2, ?_⟩
  intro i rl hi hx
  obtain ⟨b, q, t, g1, g2, g3, g4⟩ := (relBytes_ok h1).2 i rl hi
  have hm := (mem_listed hg I rl.sym).mpr hx
  rw [symIndex_pos I hm] at g1
  cases g1
  refine ⟨t, g2, ?_⟩
  have ht := relocType_lt g2
  rw [Nat.mod_eq_of_lt ht] at g3
  obtain ⟨x, hx1, hx2⟩ := hx
  have hT := L.table_read I hg hf he
  have hr := (hT.range rl.sym x hx1 hx2).2
  simp only at hr
  have hsl := (symsBytes_ok L.symsEq).1
  rw [L.table] at hsl
  have hlen := L.at3.le_length
  refine rel_read g3 g4 ht ?_
  have hsz : 16 ≤ o.machine.symSize := by unfold Machine.symSize; split <;> decide
  have := Nat.mul_le_mul_left st.table.length hsz
  rcases (by decide : ∀ b : Bool, b = false ∨ b = true) o.machine.wide with hw | hw
  · have := hn hw
    rw [hw]
    simp only [Bool.false_eq_true, if_false]
    omega
  · rw [hw]
    simp only [if_true]
    omega

end

theorem scope_got (o : Obj) (n : Nat) : o.scope.isGot n = o.symNamed n nGot := rfl

theorem got_target {o : Obj} (hr : RefOk o) {n : Nat} (h : o.symNamed n nGot = true) : localTarget o n = (n, 0) := by
  unfold Obj.symNamed at h
  rcases hs : o.syms[n]? with _ | s
  · rw [hs] at h; cases h
  · rw [hs] at h
    simp only [beq_iff_eq] at h
    have hk := hr.got n s hs h
    unfold localTarget Obj.scope
    simp only [hs, hk]
    split
    · rename_i hh
      split at hh <;> cases hh
    · rfl

theorem accepts_got {m : Machine} {val : Nat} (h : m.accepts val none = true) :
    (m.gotType val = none ↔ ¬ (val = 32 ∨ (val = 64 ∧ m.wide = true))) := by
  rcases size_of_accepts h with rfl | rfl | rfl | ⟨rfl, hw⟩
  · cases m <;> simp [Machine.gotType]
  · cases m <;> simp [Machine.gotType]
  · cases m <;> simp [Machine.gotType]
  · cases m
    · cases hw
    · simp [Machine.gotType, hw]
    · cases hw

theorem got_formula {m : Machine} {val : Nat} (h : m.accepts val none = true) (hv : val = 32 ∨ (val = 64 ∧ m.wide = true)) :
    ∃ t, m.gotType val = some (some t) ∧ m.formula t = some ⟨.got, true, val⟩ := by
  rcases hv with rfl | ⟨rfl, hw⟩
  · cases m <;> exact ⟨_, rfl, rfl⟩
  · cases m
    · cases hw
    · exact ⟨_, rfl, rfl⟩
    · cases hw

theorem target_cases (m : Machine) (o : Obj) (v : Val) (n : Nat) (l : Loc) :
    (target m o.scope v n l).1 = n ∨ (target m o.scope v n l).1 = (localTarget o n).1 := by
  have h1 : ∀ x : Nat × Int, x = (match o.scope.sectSym n with | some (q, off) => (q, (off : Int)) | none => (n, 0)) →
      x.1 = (localTarget o n).1 := by
    intro x hx
    rw [hx]
    unfold localTarget
    rcases o.scope.sectSym n with _ | ⟨q, off⟩ <;> rfl
  unfold target
  split
  · exact Or.inl rfl
  · split
    · split
      · exact Or.inl rfl
      · split
        · exact Or.inl rfl
        · exact Or.inr (h1 _ rfl)
    · exact Or.inr (h1 _ rfl)
  · exact Or.inr (h1 _ rfl)

/-- A linker puts into the field what the program asks for. -/
theorem linked {o : Obj} (hg : ObjOk o) (hr : RefOk o) (k : Linker) {v : Val} {l : Loc} {n : Nat} {s : Sym} {stored : Int}
    {rl : Reloc} (hn : v.rel = some n) (hs : o.syms[n]? = some s) (hl : o.listed n s = true) (hk : ∀ v a, s.kind ≠ .equ v a)
    (hv : outputValue o.machine o.scope v l = .ok stored (some rl)) {Q : Quantity} {b : Base}
    (ha : o.asksFor v n = some (Q, b)) (pos : Nat → Nat) (j : Nat) {t : Nat} (ht : o.machine.relocType rl = some t)
    {field : Int} (hf : SameField v.size field stored) :
    ∃ x f, o.syms[rl.sym]? = some x ∧ o.listed rl.sym x = true ∧ o.machine.formula t = some f ∧ f.bits = v.size ∧
      SameField v.size
        (k.result f (o.wantSym rl.sym x) (pos rl.sym)
          (Rel.addendIn ⟨rl.addr, pos rl.sym, t, o.machine.wantAddend rl.addend⟩ field) (k.addr (o.sectIndex j) + rl.addr))
        (k.quantity (o.address k n s) (pos n) Q + Num.get v.abs - o.base k j l b) := by
  obtain ⟨hacc, i, hi, hst, hrl⟩ := outputValue_eq hn hv
  obtain ⟨f1, f2, f3⟩ := handleAddend_fields o.machine i ⟨(target o.machine o.scope v n l).1, l.bc + l.offset, v.curposRel, v.size,
    none, (wrtOf v.wrt).bind id, o.scope.isGot (target o.machine o.scope v n l).1⟩ l.offset
  rw [← hrl] at f1 f2 f3
  simp only at f1 f2
  rw [f3] at ht
  have hcast : ((l.bc + l.offset : Nat) : Int) = l.bc + l.offset := by push_cast; rfl
  by_cases hplain : v.wrt = none ∨ v.wrt = some .dotdotsym
  · have hw : wrtOf v.wrt = none := by rcases hplain with h | h <;> rw [h] <;> rfl
    rw [hw] at hacc ht hst hrl
    have hb := size_le_width hacc
    -- the target
    obtain ⟨x, hx1, hx2, hx3, hx4⟩ : ∃ x, o.syms[(target o.machine o.scope v n l).1]? = some x ∧
        ((target o.machine o.scope v n l).1 = n ∨ o.listed (target o.machine o.scope v n l).1 x = true) ∧
        (x.name = nGot → (target o.machine o.scope v n l).1 = n) ∧
        SameField v.size (k.value (o.wantSym (target o.machine o.scope v n l).1 x) + (target o.machine o.scope v n l).2)
          (o.address k n s) := by
      rcases hplain with h | h
      · have : target o.machine o.scope v n l = localTarget o n := by
          unfold target localTarget; rw [h]; simp only; rcases o.scope.sectSym n with _ | ⟨q, off⟩ <;> rfl
        rw [this]
        exact localTarget_same hg hr k hs hk hb
      · have : target o.machine o.scope v n l = (n, 0) := by unfold target; rw [h]
        rw [this]
        exact ⟨s, hs, Or.inl rfl, fun _ => rfl, by simpa using value_same hg hr k hs hk hb⟩
    have hxl : o.listed rl.sym x = true := by
      rw [f1]
      rcases hx2 with h | h
      · rw [h] at hx1 ⊢
        rw [hs] at hx1; cases hx1; exact hl
      · exact h
    have hxs : o.syms[rl.sym]? = some x := by rw [f1]; exact hx1
    by_cases hgot : (o.symNamed n nGot && (v.size == 32 || (v.size == 64 && o.machine.wide))) = true
    · -- the global offset table
      have haf : v.curposRel ≠ decide (o.machine = .x86) ∧ Q = .got ∧ b = .here := by
        unfold Obj.asksFor at ha
        rcases hplain with h | h <;> rw [h] at ha <;> simp only [hgot, if_true] at ha <;> split at ha
        · cases ha
        · rename_i hc; cases ha; exact ⟨hc, rfl, rfl⟩
        · cases ha
        · rename_i hc; cases ha; exact ⟨hc, rfl, rfl⟩
      obtain ⟨hc, rfl, rfl⟩ := haf
      simp only [Bool.and_eq_true, Bool.or_eq_true, beq_iff_eq] at hgot
      obtain ⟨hn1, hn2⟩ := hgot
      have htar : target o.machine o.scope v n l = (n, 0) := by
        rcases hplain with h | h
        · rw [show target o.machine o.scope v n l = localTarget o n by
            unfold target localTarget; rw [h]; simp only; rcases o.scope.sectSym n with _ | ⟨q, off⟩ <;> rfl]
          exact got_target hr hn1
        · unfold target; rw [h]
      rw [htar] at ht hi hst hrl f1
      simp only [scope_got, hn1] at ht hst hrl
      obtain ⟨t', ht1, ht2⟩ := got_formula hacc hn2
      have : t = t' := by
        unfold Machine.relocType at ht
        simp only [Option.bind_none, if_true, ht1, Option.some.injEq] at ht
        exact ht.symm
      subst this
      refine ⟨x, _, hxs, hxl, ht2, rfl, ?_⟩
      unfold Linker.result
      simp only [Linker.quantity, if_true, Obj.base]
      rw [f2, hcast]
      rw [show k.got + Num.get v.abs - (k.addr (o.sectIndex j) + ↑l.bc) =
        k.got + (Num.get v.abs + l.offset) - (k.addr (o.sectIndex j) + (↑l.bc + ↑l.offset)) by ring]
      refine ((SameField.refl _ _).add ?_).sub (SameField.refl _ _)
      -- the addend
      unfold Rel.addendIn
      rw [hrl]
      rcases hm : o.machine with _ | _ | _
      · rw [hm] at hc hst
        have hcf : v.curposRel = false := by simpa using hc
        have h32 : v.size = 32 := by
          rcases hn2 with h | ⟨_, h⟩
          · exact h
          · rw [hm] at h; cases h
        simp only [Machine.wantAddend, if_true]
        refine hf.trans ?_
        rw [hst]
        simp only [Machine.handleAddend, h32, Option.bind_none, Option.isNone_none, Bool.true_and, beq_self_eq_true, bne_iff_ne, ne_eq]
        rw [hi, hcf]
        simp only [Bool.false_eq_true, if_false, add_zero, zero_add]
        split
        · exact SameField.refl _ _
        · rename_i h0
          have h0 : l.offset = 0 := by simpa using h0
          rw [h0]; simpa using SameField.refl _ _
      · rw [hm] at hc hb
        have hcf : v.curposRel = true := by simpa using hc
        simp only [Machine.wantAddend, Machine.handleAddend, reduceCtorEq, if_false, Option.getD_some]
        rw [hi, hcf]
        simp only [if_true, zero_add]
        rw [add_comm]
        exact stored_same .amd64 _ hb
      · rw [hm] at hc hb
        have hcf : v.curposRel = true := by simpa using hc
        simp only [Machine.wantAddend, Machine.handleAddend, reduceCtorEq, if_false, Option.getD_some]
        rw [hi, hcf]
        simp only [if_true, zero_add]
        rw [add_comm]
        exact stored_same .x32 _ hb
    · -- an ordinary symbol
      have haf : Q = .symbol ∧ b = if v.curposRel then .here else .none := by
        unfold Obj.asksFor at ha
        rcases hplain with h | h <;> rw [h] at ha <;> simp only [hgot, if_false, Option.some.injEq, Prod.mk.injEq,
          Bool.false_eq_true] at ha
        · exact ⟨ha.1.symm, ha.2.symm⟩
        · exact ⟨ha.1.symm, ha.2.symm⟩
      obtain ⟨rfl, rfl⟩ := haf
      have hng : o.scope.isGot (target o.machine o.scope v n l).1 = true → ¬ (v.size = 32 ∨ (v.size = 64 ∧ o.machine.wide = true)) := by
        intro hh hsz
        apply hgot
        rw [scope_got] at hh
        unfold Obj.symNamed at hh
        rw [hx1] at hh
        simp only [beq_iff_eq] at hh
        have hnn := hx3 hh
        have : o.symNamed n nGot = true := by
          unfold Obj.symNamed
          rw [hnn] at hx1
          rw [hx1]
          simpa using hh
        rw [this]
        simpa [Bool.or_eq_true] using hsz
      obtain ⟨t', ht1, ht2, ht3⟩ := plain_formula hacc v.curposRel
      have : t = t' := by
        unfold Machine.relocType at ht
        simp only [Option.bind_none] at ht
        split at ht
        · rename_i t'' hh
          split at hh
          · rename_i hgg
            rw [(accepts_got hacc).mpr (hng hgg)] at hh
            cases hh
          · cases hh
        · rw [ht1] at ht; exact (Option.some.inj ht).symm
      subst this
      refine ⟨x, _, hxs, hxl, ht3, rfl, ?_⟩
      unfold Linker.result
      simp only [Linker.quantity, if_true]
      have hadd : SameField v.size (Rel.addendIn ⟨rl.addr, pos rl.sym, t, o.machine.wantAddend rl.addend⟩ field) i := by
        refine addend_same hb (by rw [hrl]) (by rw [← hst]; exact hf) ?_
        by_cases hgg : o.scope.isGot (target o.machine o.scope v n l).1 = true
        · have := hng hgg
          have h32 : (v.size == 32) = false := by
            simp only [beq_eq_false_iff_ne, ne_eq]
            exact fun e => this (Or.inl e)
          simp only [h32, Bool.and_false]
        · have : o.scope.isGot (target o.machine o.scope v n l).1 = false := by simpa using hgg
          simp only [this, Bool.and_false, Bool.false_and]
      rw [f1] at hadd ⊢
      rw [f2, hcast] at *
      have h1 := (SameField.refl v.size (k.value (o.wantSym (target o.machine o.scope v n l).1 x))).add hadd
      rw [hi] at h1
      have h2 := hx4.add (SameField.refl v.size (Num.get v.abs))
      rcases (by decide : ∀ b : Bool, b = false ∨ b = true) v.curposRel with hc | hc
      · rw [hc] at h1 ⊢
        simp only [Bool.false_eq_true, if_false, add_zero, Obj.base, sub_zero] at h1 ⊢
        rw [← add_assoc] at h1
        exact h1.trans h2
      · rw [hc] at h1 ⊢
        simp only [if_true, Obj.base] at h1 ⊢
        have h3 := h1.sub (SameField.refl v.size (k.addr (o.sectIndex j) + (↑l.bc + ↑l.offset)))
        refine h3.trans ?_
        have h4 := h2.sub (SameField.refl v.size (k.addr (o.sectIndex j) + ↑l.bc))
        refine SameField.trans ?_ h4
        rw [show k.value (o.wantSym (target o.machine o.scope v n l).1 x) +
          ((target o.machine o.scope v n l).2 + ↑l.offset + Num.get v.abs) - (k.addr (o.sectIndex j) + (↑l.bc + ↑l.offset)) =
          k.value (o.wantSym (target o.machine o.scope v n l).1 x) + (target o.machine o.scope v n l).2 + Num.get v.abs -
            (k.addr (o.sectIndex j) + ↑l.bc) by ring]
        exact SameField.refl _ _
  · -- WRT
    rcases hwr : v.wrt with _ | w
    · exact absurd (Or.inl hwr) hplain
    rcases w with _ | kk | _
    · exact absurd (Or.inr hwr) hplain
    · unfold Obj.asksFor at ha
      rw [hwr] at ha
      simp only at ha
      rcases hss : o.machine.ssyms[kk]? with _ | X
      · rw [hss] at ha; cases ha
      rw [hss] at ha
      simp only at ha
      have hok := specialOk_all o.machine v.curposRel kk
      unfold specialOk at hok
      rw [hss] at hok
      simp only at hok
      rw [hwr] at hacc ht hst hrl
      simp only [wrtOf] at hacc ht hst hrl
      have hsz : v.size = X.size := by
        unfold Machine.accepts at hacc
        simp only [Option.bind_some, hss, beq_iff_eq] at hacc
        exact hacc
      by_cases hpc : X.name = "gotpc"
      · rw [if_pos hpc] at ha hok
        simp only [Bool.and_eq_true, decide_eq_true_eq, Bool.not_eq_true'] at hok
        obtain ⟨⟨⟨⟨k1, k2⟩, k3⟩, k4⟩, k5⟩ := hok
        split at ha
        · cases ha
        rename_i hc
        cases ha
        have hc : v.curposRel = false := by simpa using hc
        have htar : target o.machine o.scope v n l = (n, (l.offset : Int) + l.bc) := by
          unfold target; rw [hwr]; simp only [hss, k1, k2, Bool.false_eq_true, if_false, if_true]
        rw [htar] at ht hi hst hrl f1
        have hxs : o.syms[rl.sym]? = some s := by rw [f1]; exact hs
        have hxl : o.listed rl.sym s = true := by rw [f1]; exact hl
        have hss' : Machine.x86.ssyms[kk]? = some X := by rw [← k3]; exact hss
        have htt : t = 10 := by
          unfold Machine.relocType at ht
          simp only [Option.bind_some, id, k3, hss', hsz, ne_eq, not_true, if_false, k4, false_and] at ht
          exact (Option.some.inj ht).symm
        subst htt
        refine ⟨s, ⟨.got, true, 32⟩, hxs, hxl, by rw [k3]; rfl, by rw [hsz, k5], ?_⟩
        unfold Linker.result
        simp only [Linker.quantity, if_true, Obj.base]
        rw [f2, hcast]
        have hb : v.size ≤ 8 * width o.machine.wide := by rw [hsz, k5, k3]; decide
        have hadd : SameField v.size (Rel.addendIn ⟨l.bc + l.offset, pos rl.sym, 10, o.machine.wantAddend rl.addend⟩ field) i := by
          refine addend_same hb (by rw [hrl]) (by rw [← hst]; exact hf) ?_
          rfl
        rw [show k.got + Num.get v.abs - k.addr (o.sectIndex j) =
          k.got + i - (k.addr (o.sectIndex j) + (↑l.bc + ↑l.offset)) by
            rw [hi, hc]; simp only [Bool.false_eq_true, if_false]; ring]
        exact ((SameField.refl _ _).add hadd).sub (SameField.refl _ _)
      · rw [if_neg hpc] at ha hok
        obtain ⟨q', pc, hqb, hbase, k2, k3, k4, k5⟩ : ∃ q' pc, Q = q' ∧
            (pc = v.curposRel ∧ b = (if v.curposRel then .here else .none) ∨ v.curposRel = false ∧ pc = true ∧ b = .field) ∧
            o.machine.formula (if o.machine ≠ .x86 ∧ v.curposRel = true ∧ X.reloc = 3 then 9 else X.reloc) = some ⟨q', pc, X.size⟩ ∧
            (X.symRel = true ∨ q' = .gotOff) ∧ X.curpos = false ∧ X.size ≤ 8 * width o.machine.wide := by
          rcases hask : asks o.machine X.name v.curposRel with _ | q
          · rw [hask] at ha hok
            simp only at ha hok
            rcases (by decide : ∀ b : Bool, b = false ∨ b = true) v.curposRel with hc | hc
            · rw [hc] at ha hok ⊢
              simp only [Bool.false_eq_true, if_false, Option.map_eq_some_iff, Prod.mk.injEq] at ha
              obtain ⟨q, hq, rfl, rfl⟩ := ha
              rw [hq] at hok
              simp only [Bool.false_eq_true, if_false, Bool.and_eq_true, decide_eq_true_eq, Bool.not_eq_true', Bool.or_eq_true] at hok
              obtain ⟨⟨⟨⟨_, h2⟩, h3⟩, h4⟩, h5⟩ := hok
              exact ⟨q, true, rfl, .inr ⟨rfl, rfl, rfl⟩, by simpa using h2, h3, h4, h5⟩
            · rw [hc] at ha
              simp at ha
          · rw [hask] at ha hok
            simp only [Option.some.injEq, Prod.mk.injEq] at ha
            simp only [Bool.and_eq_true, decide_eq_true_eq, Bool.not_eq_true', Bool.or_eq_true] at hok
            obtain ⟨⟨⟨⟨_, h2⟩, h3⟩, h4⟩, h5⟩ := hok
            exact ⟨q, v.curposRel, ha.1.symm, .inl ⟨rfl, ha.2.symm⟩, h2, h3, h4, h5⟩
        subst hqb
        have hb : v.size ≤ 8 * width o.machine.wide := by rw [hsz]; exact k5
        obtain ⟨x, hx1, hx2, hx4⟩ : ∃ x, o.syms[(target o.machine o.scope v n l).1]? = some x ∧
            ((target o.machine o.scope v n l).1 = n ∨ o.listed (target o.machine o.scope v n l).1 x = true) ∧
            (SameField v.size (k.value (o.wantSym (target o.machine o.scope v n l).1 x) + (target o.machine o.scope v n l).2)
              (o.address k n s) ∧ (Q = .gotOff ∨ target o.machine o.scope v n l = (n, 0))) := by
          by_cases hsr : X.symRel = true
          · have : target o.machine o.scope v n l = (n, 0) := by
              unfold target; rw [hwr]; simp only [hss, hsr, if_true]
            rw [this]
            exact ⟨s, hs, Or.inl rfl, by simpa using value_same hg hr k hs hk hb, Or.inr rfl⟩
          · have : target o.machine o.scope v n l = localTarget o n := by
              unfold target localTarget; rw [hwr]; simp only [hss, hsr, k4, Bool.false_eq_true, if_false]
              rcases o.scope.sectSym n with _ | ⟨q, off⟩ <;> rfl
            rw [this]
            obtain ⟨x, a1, a2, _, a4⟩ := localTarget_same hg hr k hs hk hb
            exact ⟨x, a1, a2, a4, Or.inl (by rcases k3 with h | h; exact absurd h hsr; exact h)⟩
        have hxl : o.listed rl.sym x = true := by
          rw [f1]
          rcases hx2 with h | h
          · rw [h] at hx1 ⊢
            rw [hs] at hx1; cases hx1; exact hl
          · exact h
        have hxs : o.syms[rl.sym]? = some x := by rw [f1]; exact hx1
        have htt : t = if o.machine ≠ .x86 ∧ v.curposRel = true ∧ X.reloc = 3 then 9 else X.reloc := by
          unfold Machine.relocType at ht
          simp only [Option.bind_some, id, hss, hsz, ne_eq, not_true, if_false] at ht
          split at ht <;> rename_i hh
          · rw [if_pos hh]; exact (Option.some.inj ht).symm
          · rw [if_neg hh]; exact (Option.some.inj ht).symm
        rw [← htt] at k2
        refine ⟨x, _, hxs, hxl, k2, hsz.symm, ?_⟩
        have hadd : SameField v.size (Rel.addendIn ⟨rl.addr, pos rl.sym, t, o.machine.wantAddend rl.addend⟩ field) i :=
          addend_same hb (by rw [hrl]) (by rw [← hst]; exact hf) rfl
        unfold Linker.result
        simp only
        rw [f2, hcast] at *
        have hq : SameField v.size (k.quantity (k.value (o.wantSym rl.sym x)) (pos rl.sym) Q + (target o.machine o.scope v n l).2)
            (k.quantity (o.address k n s) (pos n) Q) := by
          rw [f1]
          rcases hx4.2 with rfl | htar
          · have := hx4.1.sub (SameField.refl v.size k.got)
            simp only [Linker.quantity]
            rwa [show k.value (o.wantSym (target o.machine o.scope v n l).1 x) + (target o.machine o.scope v n l).2 - k.got =
              k.value (o.wantSym (target o.machine o.scope v n l).1 x) - k.got + (target o.machine o.scope v n l).2 by ring] at this
          · rw [htar] at hx4 ⊢
            have h0 := hx4.1
            simp only [add_zero] at h0 ⊢
            cases Q <;> simp only [Linker.quantity]
            · exact h0
            · exact h0.sub (SameField.refl _ _)
            all_goals exact SameField.refl _ _
        have h1 := (SameField.refl v.size (k.quantity (k.value (o.wantSym rl.sym x)) (pos rl.sym) Q)).add hadd
        rw [hi] at h1
        have h2 := hq.add (SameField.refl v.size (Num.get v.abs))
        rcases hbase with ⟨rfl, rfl⟩ | ⟨hc, rfl, rfl⟩
        swap
        · rw [hc] at h1
          simp only [Bool.false_eq_true, if_false, if_true, add_zero, Obj.base] at h1 ⊢
          rw [← add_assoc] at h1
          have h3 := (h1.trans h2).sub (SameField.refl v.size (k.addr (o.sectIndex j) + (↑l.bc + ↑l.offset)))
          rwa [show k.addr (o.sectIndex j) + ↑l.bc + ↑l.offset = k.addr (o.sectIndex j) + (↑l.bc + ↑l.offset) by ring]
        rcases (by decide : ∀ b : Bool, b = false ∨ b = true) v.curposRel with hc | hc
        · rw [hc] at h1 ⊢
          simp only [Bool.false_eq_true, if_false, add_zero, Obj.base, sub_zero] at h1 ⊢
          rw [← add_assoc] at h1
          exact h1.trans h2
        · rw [hc] at h1 ⊢
          simp only [if_true, Obj.base] at h1 ⊢
          have h3 := h1.sub (SameField.refl v.size (k.addr (o.sectIndex j) + (↑l.bc + ↑l.offset)))
          refine h3.trans ?_
          have h4 := h2.sub (SameField.refl v.size (k.addr (o.sectIndex j) + ↑l.bc))
          refine SameField.trans ?_ h4
          rw [show k.quantity (k.value (o.wantSym rl.sym x)) (pos rl.sym) Q +
            ((target o.machine o.scope v n l).2 + ↑l.offset + Num.get v.abs) - (k.addr (o.sectIndex j) + (↑l.bc + ↑l.offset)) =
            k.quantity (k.value (o.wantSym rl.sym x)) (pos rl.sym) Q + (target o.machine o.scope v n l).2 + Num.get v.abs -
              (k.addr (o.sectIndex j) + ↑l.bc) by ring]
          exact SameField.refl _ _
    · unfold Obj.asksFor at ha
      rw [hwr] at ha
      cases ha

end Verif.Elf
