import Verif.Elf.Final
/-
Reading back sections, symbols and relocations.
-/
set_option linter.unusedSimpArgs false
namespace Verif.Elf

/-! ### Records -/

theorem sym_length {m : Machine} {name : Nat} {value size : Int} {bind type vis shndx : Nat} {b : List Byte}
    (h : m.writeSym name value size bind type vis shndx = some b) : b.length = m.symSize := by
  unfold Machine.writeSym at h
  split at h
  · rename_i v z hv hz
    have h1 := wordI_length m _ _ hv
    have h2 := wordI_length m _ _ hz
    simp only [Option.some.injEq] at h
    subst h
    unfold Machine.symSize
    cases hw : m.wide <;> simp [le_length, h1, h2, width, hw]
  · cases h

theorem sym_read {m : Machine} {tab strs : List Byte} {i name : Nat} {value size : Int} {bind type vis shndx : Nat}
    {b : List Byte} {nm : Name} (h : m.writeSym name value size bind type vis shndx = some b)
    (ha : At tab (i * m.symSize) b) (h1 : name < 2 ^ 32) (h2 : bind < 16) (h3 : shndx < 2 ^ 16)
    (hs : string strs name = some nm) :
    symbolAt m.wide tab strs i = some ⟨nm, m.stored value, m.stored size, bind, type % 16, vis % 4, shndx⟩ := by
  unfold Machine.writeSym at h
  split at h
  · rename_i v z hv hz
    have hve := (wordI_eq m _ _ hv).1
    have hze := (wordI_eq m _ _ hz).1
    simp only [Option.some.injEq] at h
    subst h
    subst hve
    subst hze
    have hi : bind * 16 + type % 16 < 256 ^ 1 := by have := Nat.mod_lt type (show 0 < 16 by omega); omega
    have ho : vis % 4 < 256 ^ 1 := by have := Nat.mod_lt vis (show 0 < 4 by omega); omega
    have d1 : (bind * 16 + type % 16) / 16 = bind := by omega
    have d2 : (bind * 16 + type % 16) % 16 = type % 16 := by omega
    have d3 : vis % 4 % 4 = vis % 4 := by omega
    unfold symbolAt
    unfold Machine.symSize at ha
    have sl1 := stored_lt m value
    have sl2 := stored_lt m size
    cases hw : m.wide <;> rw [hw] at sl1 sl2
    · simp only [hw, Bool.false_eq_true, if_false] at ha ⊢
      have e2 := ha.right
      have e1 := ha.left
      have r4 := e2.right.field (show shndx < 256 ^ 2 by omega)
      have r3 := e2.left.right.field ho
      have r2 := e2.left.left.field hi
      have r1 := e1.right.field sl2
      have r0 := e1.left.right.field sl1
      have rn := e1.left.left.field (show name < 256 ^ 4 by omega)
      simp only [List.length_append, le_length, width, hw, Bool.false_eq_true, if_false] at r0 r1 r2 r3 r4
      simp only [width, Bool.false_eq_true, if_false]
      simp only [rn, hs, Option.bind_eq_bind, Option.bind_some]
      rw [show i * 16 + 12 = i * 16 + (4 + 4 + 4) by omega, show i * 16 + 13 = i * 16 + (4 + 4 + 4) + 1 by omega,
        show i * 16 + 14 = i * 16 + (4 + 4 + 4) + (1 + 1) by omega, show i * 16 + 8 = i * 16 + (4 + 4) by omega]
      simp only [r0, r1, r2, r3, r4, Option.bind_some, d1, d2, d3]
    · simp only [hw, if_true] at ha ⊢
      have e3 := ha.right
      have e2 := ha.left.right
      have e1 := ha.left.left
      have i4 := e1.right.right.field (show shndx < 256 ^ 2 by omega)
      have i3 := e1.right.left.right.field ho
      have i2 := e1.right.left.left.field hi
      have rn := e1.left.field (show name < 256 ^ 4 by omega)
      have rv := e2.field sl1
      have rz := e3.field sl2
      simp only [List.length_append, le_length, width, hw, if_true] at i2 i3 i4 rv rz
      simp only [width, if_true]
      simp only [rn, hs, Option.bind_eq_bind, Option.bind_some]
      rw [show i * 24 + 5 = i * 24 + 4 + 1 by omega, show i * 24 + 6 = i * 24 + 4 + (1 + 1) by omega,
        show i * 24 + 8 = i * 24 + (4 + (1 + 1 + 2)) by omega, show i * 24 + 16 = i * 24 + (4 + (1 + 1 + 2) + 8) by omega]
      simp only [rv, rz, i2, i3, i4, Option.bind_some, d1, d2, d3]
  · cases h

theorem rel_length {m : Machine} {r : Reloc} {type sym : Nat} {b : List Byte} (h : m.writeReloc r type sym = some b) :
    b.length = m.relSize := by
  unfold Machine.writeReloc at h
  split at h
  · cases h
  · rename_i a ha
    have h1 := wordI_length m _ _ ha
    cases m
    · simp only [Option.some.injEq] at h
      subst h
      simp [le_length, h1, width, Machine.wide, Machine.relSize]
    · simp only [Option.map_eq_some_iff] at h
      obtain ⟨c, hc, rfl⟩ := h
      have h2 : c.length = 8 := by
        unfold addendBytes at hc
        split at hc
        · exact wordI_length _ _ _ hc
        · cases hc; rfl
      simp [le_length, h1, h2, width, Machine.wide, Machine.relSize]
    · simp only [Option.map_eq_some_iff] at h
      obtain ⟨c, hc, rfl⟩ := h
      have h2 : c.length = 4 := by
        unfold addendBytes at hc
        split at hc
        · exact wordI_length _ _ _ hc
        · cases hc; rfl
      simp [le_length, h1, h2, width, Machine.wide, Machine.relSize]

/-- The addend a relocation is to have: none in SHT_REL, else one that is 0 if there is none. -/
def Machine.wantAddend (m : Machine) (a : Option Int) : Option Nat :=
  if m = .x86 then none else some (m.stored (a.getD 0))

theorem addend_eq {m : Machine} {a : Option Int} {b : List Byte} (h : addendBytes m a = some b) :
    b = le (width m.wide) (m.stored (a.getD 0)) := by
  unfold addendBytes at h
  split at h
  · exact (wordI_eq m _ _ h).1
  · cases h
    rw [word_eq _ _ (by decide)]
    have := stored_nat m 0 (by unfold width; split <;> decide)
    simpa using congrArg (le (width m.wide)) this.symm

theorem addr_eq {m : Machine} {a : Nat} {b : List Byte} (h : m.wordI a = some b) :
    b = le (width m.wide) a ∧ a < 256 ^ width m.wide := by
  obtain ⟨h1, _, h3⟩ := wordI_eq m _ _ h
  have h4 : a < 256 ^ width m.wide := by
    have e : ((2 : Int) ^ (8 * width m.wide)) = ((256 ^ width m.wide : Nat) : Int) := by unfold width; split <;> decide
    rw [e] at h3
    exact_mod_cast h3
  rw [stored_nat m a h4] at h1
  exact ⟨h1, h4⟩

theorem rel_read {m : Machine} {tab : List Byte} {i type sym : Nat} {r : Reloc} {b : List Byte}
    (h : m.writeReloc r type sym = some b) (ha : At tab (i * m.relSize) b) (h1 : type < 256)
    (h2 : sym < if m.wide then 2 ^ 32 else 2 ^ 24) :
    relAt m.wide (decide (m ≠ .x86)) tab i = some ⟨r.addr, sym, type, m.wantAddend r.addend⟩ := by
  unfold Machine.writeReloc at h
  split at h
  · cases h
  · rename_i a hadr
    obtain ⟨ea, la⟩ := addr_eq hadr
    subst ea
    cases m
    · simp only [Option.some.injEq] at h
      subst h
      simp only [Machine.wide, width, Machine.relSize, Bool.false_eq_true, if_false] at *
      have r2 := ha.right.field (show sym * 256 + type % 256 < 256 ^ 4 by omega)
      have r1 := ha.left.field la
      simp only [le_length] at r2
      unfold relAt
      simp only [width, Bool.false_eq_true, if_false, ne_eq, not_true, decide_false]
      rw [show i * (2 * 4 + 0) = i * 8 by omega]
      simp only [r1, r2, Option.bind_eq_bind, Option.bind_some, Machine.wantAddend, if_true]
      rw [show (sym * 256 + type % 256) / 256 = sym by omega, show (sym * 256 + type % 256) % 256 = type by omega]
    · simp only [Option.map_eq_some_iff] at h
      obtain ⟨c, hc, rfl⟩ := h
      have ec := addend_eq hc
      subst ec
      simp only [Machine.wide, width, Machine.relSize, if_true] at *
      have r3 := ha.right.field (stored_lt .amd64 (r.addend.getD 0))
      have ha2 := ha.left
      rw [List.append_assoc] at ha2
      have e8 : le 4 type ++ le 4 sym = le 8 (type + sym * 2 ^ 32) := by
        rw [show (8 : Nat) = 4 + 4 from rfl, le_add]
        rw [← le_mod 4 (type + sym * 2 ^ 32), show (type + sym * 2 ^ 32) % 256 ^ 4 = type by omega,
          show (type + sym * 2 ^ 32) / 256 ^ 4 = sym by omega]
      rw [e8] at ha2
      have r2 := ha2.right.field (show type + sym * 2 ^ 32 < 256 ^ 8 by omega)
      have r1 := ha2.left.field la
      simp only [le_length, List.length_append] at r2 r3
      unfold relAt
      simp only [width, if_true, ne_eq, decide_true, reduceCtorEq, not_false_eq_true]
      rw [show i * (2 * 8 + 8) = i * 24 by omega, show i * 24 + 2 * 8 = i * 24 + (8 + 4 + 4) by omega]
      simp only [r1, r2, r3, Option.bind_eq_bind, Option.bind_some, Machine.wantAddend, Option.map_some, reduceCtorEq, if_false]
      rw [show (type + sym * 2 ^ 32) / 2 ^ 32 = sym by omega, show (type + sym * 2 ^ 32) % 2 ^ 32 = type by omega]
    · simp only [Option.map_eq_some_iff] at h
      obtain ⟨c, hc, rfl⟩ := h
      have ec := addend_eq hc
      subst ec
      simp only [Machine.wide, width, Machine.relSize, Bool.false_eq_true, if_false] at *
      have r3 := ha.right.field (stored_lt .x32 (r.addend.getD 0))
      have r2 := ha.left.right.field (show sym * 256 + type % 256 < 256 ^ 4 by omega)
      have r1 := ha.left.left.field la
      simp only [le_length, List.length_append] at r2 r3
      unfold relAt
      simp only [width, Bool.false_eq_true, if_false, if_true, ne_eq, decide_true, reduceCtorEq, not_false_eq_true]
      rw [show i * (2 * 4 + 4) = i * 12 by omega, show i * 12 + 2 * 4 = i * 12 + (4 + 4) by omega]
      simp only [r1, r2, r3, Option.bind_eq_bind, Option.bind_some, Machine.wantAddend, Option.map_some, reduceCtorEq, if_false]
      rw [show (sym * 256 + type % 256) / 256 = sym by omega, show (sym * 256 + type % 256) % 256 = type by omega]

/-! ### Tables -/

theorem symBytes_length {o : Obj} {st : St} {heads : List Head} {r : Ref} {b : List Byte} {k : Nat}
    (h : symBytes o st heads r = some (b, k)) : b.length = o.machine.symSize := by
  unfold symBytes at h
  split at h
  · cases h
  · simp only at h
    split at h
    · rw [Option.map_eq_some_iff] at h
      obtain ⟨c, hc, he⟩ := h
      simp only [Prod.mk.injEq] at he
      obtain ⟨rfl, _⟩ := he
      exact sym_length hc
    · cases h

theorem symsBytes_ok {o : Obj} {st : St} {heads : List Head} {rs : List Ref} {bs : List Byte} {ks : Nat}
    (h : symsBytes o st heads rs = some (bs, ks)) :
    bs.length = rs.length * o.machine.symSize ∧ ∀ i r, rs[i]? = some r →
      ∃ b k, symBytes o st heads r = some (b, k) ∧ k ≤ ks ∧ At bs (i * o.machine.symSize) b := by
  induction rs generalizing bs ks with
  | nil =>
    simp only [symsBytes, Option.some.injEq, Prod.mk.injEq] at h
    obtain ⟨rfl, rfl⟩ := h
    simp
  | cons r rs ih =>
    unfold symsBytes at h
    rcases h1 : symBytes o st heads r with _ | ⟨b, k⟩
    · rw [h1] at h; cases h
    rcases h2 : symsBytes o st heads rs with _ | ⟨bs', ks'⟩
    · rw [h1, h2] at h; cases h
    rw [h1, h2] at h
    simp only [Option.some.injEq, Prod.mk.injEq] at h
    obtain ⟨rfl, rfl⟩ := h
    obtain ⟨c1, c2⟩ := ih h2
    have hl := symBytes_length h1
    refine ⟨by rw [List.length_append, hl, c1, List.length_cons, Nat.add_mul]; omega, ?_⟩
    intro i r' hr
    cases i with
    | zero =>
      simp only [List.getElem?_cons_zero, Option.some.injEq] at hr
      subst hr
      refine ⟨b, k, h1, by omega, ?_⟩
      rw [Nat.zero_mul]
      exact ⟨[], bs', by simp, rfl⟩
    | succ i =>
      simp only [List.getElem?_cons_succ] at hr
      obtain ⟨b2, k2, d1, d2, d3⟩ := c2 i r' hr
      refine ⟨b2, k2, d1, by omega, ?_⟩
      have := d3.append_left b
      rw [hl] at this
      rwa [Nat.add_mul, Nat.one_mul, Nat.add_comm]

theorem relBytes_ok {m : Machine} {ix : Nat → Option Nat} {rs : List Reloc} {bs : List Byte}
    (h : relBytes m ix rs = some bs) :
    bs.length = rs.length * m.relSize ∧ ∀ i r, rs[i]? = some r →
      ∃ b j t, ix r.sym = some j ∧ m.relocType r = some t ∧ m.writeReloc r (t % 256) j = some b ∧ At bs (i * m.relSize) b := by
  induction rs generalizing bs with
  | nil =>
    simp only [relBytes, Option.some.injEq] at h
    subst h
    simp
  | cons r rs ih =>
    unfold relBytes at h
    rcases h1 : ix r.sym with _ | j
    · rw [h1] at h; cases h
    rcases h2 : m.relocType r with _ | t
    · rw [h1, h2] at h; cases h
    rw [h1, h2] at h
    simp only at h
    rcases h3 : m.writeReloc r (t % 256) j with _ | b
    · rw [h3] at h; cases h
    rcases h4 : relBytes m ix rs with _ | bs'
    · rw [h3, h4] at h; cases h
    rw [h3, h4] at h
    simp only [Option.some.injEq] at h
    subst h
    obtain ⟨c1, c2⟩ := ih h4
    have hl := rel_length h3
    refine ⟨by rw [List.length_append, hl, c1, List.length_cons, Nat.add_mul]; omega, ?_⟩
    intro i r' hr
    cases i with
    | zero =>
      simp only [List.getElem?_cons_zero, Option.some.injEq] at hr
      subst hr
      refine ⟨b, j, t, h1, h2, h3, ?_⟩
      rw [Nat.zero_mul]
      exact ⟨[], bs', by simp, rfl⟩
    | succ i =>
      simp only [List.getElem?_cons_succ] at hr
      obtain ⟨b2, j2, t2, d1, d2, d3, d4⟩ := c2 i r' hr
      refine ⟨b2, j2, t2, d1, d2, d3, ?_⟩
      have := d4.append_left b
      rw [hl] at this
      rwa [Nat.add_mul, Nat.one_mul, Nat.add_comm]

end Verif.Elf
