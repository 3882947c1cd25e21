import Verif.Elf.Spec
import Mathlib.Tactic.Ring
/-
Bytes at positions, and reading back the records of the file.
-/
set_option linter.unusedSimpArgs false
namespace Verif.Elf

theorem le_length (n v : Nat) : (le n v).length = n := by
  induction n generalizing v with
  | zero => rfl
  | succ n ih => simp [le, ih]

theorem number_le (n v : Nat) : number (le n v) = v % 256 ^ n := by
  induction n generalizing v with
  | zero => simp [le, number, Nat.mod_one]
  | succ n ih =>
    simp only [le, number, ih, BitVec.toNat_ofNat]
    rw [show 256 ^ (n + 1) = 256 * 256 ^ n from Nat.pow_succ', Nat.mod_mul]

/-- The bytes `bs` are in the file at a position. -/
def At (f : List Byte) (pos : Nat) (bs : List Byte) : Prop := ∃ pre post, f = pre ++ bs ++ post ∧ pre.length = pos

theorem At.le_length {f pos bs} (h : At f pos bs) : pos + bs.length ≤ f.length := by
  obtain ⟨a, b, rfl, rfl⟩ := h
  simp

theorem At.drop_take {f pos bs} (h : At f pos bs) : (f.drop pos).take bs.length = bs := by
  obtain ⟨a, b, rfl, rfl⟩ := h
  simp [List.append_assoc]

theorem At.slice {f pos bs} (h : At f pos bs) {n : Nat} (hn : n = bs.length) : slice f pos n = some bs := by
  subst hn
  unfold Verif.Elf.slice
  rw [if_pos h.le_length, h.drop_take]

theorem At.left {f pos a b} (h : At f pos (a ++ b)) : At f pos a := by
  obtain ⟨x, y, rfl, rfl⟩ := h
  exact ⟨x, b ++ y, by simp [List.append_assoc], rfl⟩

theorem At.right {f pos a b} (h : At f pos (a ++ b)) : At f (pos + a.length) b := by
  obtain ⟨x, y, rfl, rfl⟩ := h
  exact ⟨x ++ a, y, by simp [List.append_assoc], by simp⟩

theorem At.right' {f pos a b} (h : At f pos (a ++ b)) {q : Nat} (hq : q = pos + a.length) : At f q b := hq ▸ h.right

theorem At.sub {f p g q bs} (h : At f p g) (h' : At g q bs) : At f (p + q) bs := by
  obtain ⟨x, y, rfl, rfl⟩ := h
  obtain ⟨u, v, rfl, rfl⟩ := h'
  exact ⟨x ++ u, v ++ y, by simp [List.append_assoc], by simp⟩

theorem At.append_left {f pos bs} (h : At f pos bs) (g : List Byte) : At (g ++ f) (g.length + pos) bs := by
  obtain ⟨x, y, rfl, rfl⟩ := h
  exact ⟨g ++ x, y, by simp [List.append_assoc], by simp⟩

theorem At.append_right {f pos bs} (h : At f pos bs) (g : List Byte) : At (f ++ g) pos bs := by
  obtain ⟨x, y, rfl, rfl⟩ := h
  exact ⟨x, y ++ g, by simp [List.append_assoc], rfl⟩

theorem At.mono {f f' pos bs} (h : At f pos bs) (hp : f <+: f') : At f' pos bs := by
  obtain ⟨g, rfl⟩ := hp
  exact h.append_right g

theorem At.end_ (f bs : List Byte) : At (f ++ bs) f.length bs := ⟨f, [], by simp, rfl⟩

/-- Changing the first bytes leaves what comes later. -/
theorem At.patch {f pos bs} (h : At f pos bs) (g : List Byte) (hg : g.length ≤ pos) :
    At (g ++ f.drop g.length) pos bs := by
  obtain ⟨x, y, rfl, rfl⟩ := h
  refine ⟨g ++ x.drop g.length, y, ?_, by simp; omega⟩
  rw [List.append_assoc, List.append_assoc, List.append_assoc, List.drop_append_of_le_length hg]

theorem At.field {f pos n v} (h : At f pos (le n v)) (hv : v < 256 ^ n) : field f pos n = some v := by
  unfold Verif.Elf.field
  rw [h.slice (by rw [Elf.le_length]), Option.map_some, number_le, Nat.mod_eq_of_lt hv]

theorem At.field_mod {f pos n v} (h : At f pos (le n v)) : Elf.field f pos n = some (v % 256 ^ n) := by
  unfold Verif.Elf.field
  rw [h.slice (by rw [Elf.le_length]), Option.map_some, number_le]

theorem le_add (n k v : Nat) : le (n + k) v = le n v ++ le k (v / 256 ^ n) := by
  induction n generalizing v with
  | zero => simp [le]
  | succ n ih =>
    rw [show n + 1 + k = (n + k) + 1 by omega]
    simp only [le, List.cons_append, ih]
    rw [Nat.div_div_eq_div_mul, ← Nat.pow_succ']

theorem le_mod (n v : Nat) : le n (v % 256 ^ n) = le n v := by
  induction n generalizing v with
  | zero => rfl
  | succ n ih =>
    simp only [le]
    have h1 : BitVec.ofNat 8 (v % 256 ^ (n + 1)) = BitVec.ofNat 8 v := by
      apply BitVec.eq_of_toNat_eq
      simp only [BitVec.toNat_ofNat]
      rw [Nat.pow_succ, Nat.mod_mod_of_dvd _ ⟨256 ^ n, by rw [Nat.mul_comm]⟩]
    have h2 : v % 256 ^ (n + 1) / 256 = (v / 256) % 256 ^ n := by
      rw [Nat.pow_succ, Nat.mul_comm, Nat.mod_mul_right_div_self]
    rw [h1, h2, ih]

theorem le64z_eq (v : Nat) (h : v < 2 ^ 32) : le64z v = le 8 v := by
  unfold le64z
  rw [show (8 : Nat) = 4 + 4 from rfl, le_add, show v / 256 ^ 4 = 0 from Nat.div_eq_of_lt (by omega)]

theorem word_eq (m : Machine) (v : Nat) (h : v < 2 ^ 32) : m.word v = le (width m.wide) v := by
  unfold Machine.word width
  split
  · exact le64z_eq v h
  · rfl

theorem word_length (m : Machine) (v : Nat) : (m.word v).length = width m.wide := by
  unfold Machine.word width le64z
  split <;> simp [le_length]

theorem wordI_eq (m : Machine) (v : Int) (b : List Byte) (h : m.wordI v = some b) :
    b = le (width m.wide) (m.stored v) ∧ -(2 ^ (8 * width m.wide - 1)) ≤ v ∧ v < 2 ^ (8 * width m.wide) := by
  unfold Machine.wordI leInt at h
  unfold Machine.stored width
  split at h <;> rename_i hw <;> split at h <;> rename_i hr <;> simp_all

theorem stored_lt (m : Machine) (v : Int) : m.stored v < 256 ^ width m.wide := by
  unfold Machine.stored
  have h0 : (0 : Int) < 2 ^ (8 * width m.wide) := by unfold width; split <;> decide
  have h1 := Int.emod_lt_of_pos v h0
  have h2 := Int.emod_nonneg v (ne_of_gt h0)
  have h3 : ((2 : Int) ^ (8 * width m.wide)) = ((256 ^ width m.wide : Nat) : Int) := by unfold width; split <;> decide
  omega

theorem stored_nat (m : Machine) (v : Nat) (h : v < 256 ^ width m.wide) : m.stored v = v := by
  unfold Machine.stored
  have h3 : ((2 : Int) ^ (8 * width m.wide)) = ((256 ^ width m.wide : Nat) : Int) := by unfold width; split <;> decide
  rw [h3, ← Int.natCast_emod, Int.toNat_natCast, Nat.mod_eq_of_lt h]

theorem wordI_length (m : Machine) (v : Int) (b : List Byte) (h : m.wordI v = some b) : b.length = width m.wide := by
  rw [(wordI_eq m v b h).1, le_length]

theorem small_word (m : Machine) (v : Nat) (h : v < 2 ^ 32) : v < 256 ^ width m.wide := by
  unfold width
  split
  · exact Nat.lt_trans h (by decide)
  · exact h

theorem wordI_some (m : Machine) (v : Nat) (h : v < 2 ^ 32) : m.wordI v = some (le (width m.wide) v) := by
  unfold Machine.wordI leInt width
  split
  · rw [if_pos (by constructor <;> omega)]
    congr 2
    omega
  · rw [if_pos (by constructor <;> omega)]
    congr 2
    omega

/-! ### Reading back the headers -/

theorem shdr_length (m : Machine) {name type flags offset : Nat} {size : Int} {link info align entsize : Nat} {b : List Byte}
    (h : m.writeShdr name type flags offset size link info align entsize = some b) : b.length = m.shdrSize := by
  unfold Machine.writeShdr at h
  cases hz : m.wordI size with
  | none => rw [hz] at h; cases h
  | some z =>
    rw [hz, Option.map_some, Option.some_inj] at h
    subst h
    have := wordI_length m _ _ hz
    simp only [List.length_append, le_length, word_length, this]
    unfold Machine.shdrSize width
    split <;> rfl

theorem shdr_read (m : Machine) (f : List Byte) (pos name type flags offset : Nat) (size : Int) (link info align entsize : Nat)
    (b : List Byte) (h : m.writeShdr name type flags offset size link info align entsize = some b) (ha : At f pos b)
    (h1 : name < 2 ^ 32) (h2 : type < 2 ^ 32) (h3 : flags < 2 ^ 32) (h4 : offset < 2 ^ 32) (h5 : link < 2 ^ 32)
    (h6 : info < 2 ^ 32) (h7 : align < 2 ^ 32) (h8 : entsize < 2 ^ 32) :
    shdr m.wide f pos = some ⟨name, type, flags, 0, offset, m.stored size, link, info, align, entsize⟩ := by
  unfold Machine.writeShdr at h
  cases hz : m.wordI size with
  | none => rw [hz] at h; cases h
  | some z =>
    rw [hz, Option.map_some, Option.some_inj] at h
    subst h
    have hze := (wordI_eq m _ _ hz).1
    rw [hze] at ha
    rw [word_eq m flags h3, word_eq m 0 (by decide), word_eq m offset h4, word_eq m align h7, word_eq m entsize h8] at ha
    have s4 : ∀ {v : Nat}, v < 2 ^ 32 → v < 256 ^ 4 := fun h => h
    have r10 := ha.right.field (small_word m _ h8)
    have a9 := ha.left
    have r9 := a9.right.field (small_word m _ h7)
    have a8 := a9.left
    have r8 := a8.right.field (s4 h6)
    have a7 := a8.left
    have r7 := a7.right.field (s4 h5)
    have a6 := a7.left
    have r6 := a6.right.field (stored_lt m size)
    have a5 := a6.left
    have r5 := a5.right.field (small_word m _ h4)
    have a4 := a5.left
    have r4 := a4.right.field (small_word m 0 (by decide))
    have a3 := a4.left
    have r3 := a3.right.field (small_word m _ h3)
    have a2 := a3.left
    have r2 := a2.right.field (s4 h2)
    have r1 := a2.left.field (s4 h1)
    simp only [List.length_append, le_length] at r2 r3 r4 r5 r6 r7 r8 r9 r10
    generalize hw : width m.wide = w at *
    unfold shdr
    simp only [hw]
    rw [show pos + 8 + 4 * w = pos + (4 + 4 + w + w + w + w) by omega, show pos + 12 + 4 * w = pos + (4 + 4 + w + w + w + w + 4) by omega,
      show pos + 16 + 4 * w = pos + (4 + 4 + w + w + w + w + 4 + 4) by omega,
      show pos + 16 + 5 * w = pos + (4 + 4 + w + w + w + w + 4 + 4 + w) by omega,
      show pos + 8 + 2 * w = pos + (4 + 4 + w + w) by omega, show pos + 8 + 3 * w = pos + (4 + 4 + w + w + w) by omega,
      show pos + 8 + w = pos + (4 + 4 + w) by omega, show pos + 8 = pos + (4 + 4) by omega]
    rw [r1, r2, r3, r4, r5, r6, r7, r8, r9, r10]
    rfl

theorem ehdr_length (m : Machine) (a b c : Nat) : (m.writeEhdr a b c).length = m.ehdrSize := by
  unfold Machine.writeEhdr
  simp only [List.length_append, le_length, word_length, List.length_cons, List.length_nil, List.length_replicate]
  unfold Machine.ehdrSize width
  split <;> rfl

theorem ehdr_read (m : Machine) (f : List Byte) (shoff shnum shstrndx : Nat) (h1 : shoff < 2 ^ 32) (h2 : shnum < 2 ^ 16)
    (h3 : shstrndx < 2 ^ 16) :
    ehdr (m.writeEhdr shoff shnum shstrndx ++ f) =
      some ⟨m.wide, if m = .x86 then 3 else 62, shoff, m.shdrSize, shnum, shstrndx⟩ := by
  have ha : At (m.writeEhdr shoff shnum shstrndx ++ f) 0 (m.writeEhdr shoff shnum shstrndx) := ⟨[], f, rfl, rfl⟩
  have s2 : ∀ {v : Nat}, v < 2 ^ 16 → v < 256 ^ 2 := fun h => h
  have hm : (m.writeEhdr shoff shnum shstrndx ++ f).take 4 = [0x7f#8, 0x45#8, 0x4c#8, 0x46#8] := by
    unfold Machine.writeEhdr; rfl
  generalize hg : m.writeEhdr shoff shnum shstrndx ++ f = g at *
  unfold Machine.writeEhdr at ha
  rw [word_eq m 0 (by decide), word_eq m shoff h1] at ha
  have r15 := ha.right.field (s2 h3)
  have a14 := ha.left
  have r14 := a14.right.field (s2 h2)
  have a13 := a14.left
  have r13 := a13.right.field (v := m.shdrSize) (by unfold Machine.shdrSize; split <;> decide)
  have a9 := a13.left.left.left.left.left
  have r9 := a9.right.field (small_word m _ h1)
  have a5 := a9.left.left.left.left
  have r5 := a5.right.field (v := if m = .x86 then 3 else 62) (by split <;> decide)
  have a4 := a5.left
  have r4 := a4.right.field (v := 1) (by decide)
  have a2 := a4.left.left
  have c1 : Elf.field g 4 1 = some (if m.wide then 2 else 1) := by
    have : At g 4 (le 1 (if m.wide then 2 else 1)) := by
      obtain ⟨x, y, hx, hl⟩ := a2
      have : x = [] := List.eq_nil_of_length_eq_zero hl
      subst this
      exact ⟨[0x7f#8, 0x45#8, 0x4c#8, 0x46#8], [1#8, 1#8] ++ y, by rw [hx]; cases m.wide <;> rfl, rfl⟩
    exact this.field (by split <;> decide)
  have c2 : Elf.field g 5 1 = some 1 := by
    have : At g 5 (le 1 1) := by
      obtain ⟨x, y, hx, hl⟩ := a2
      have : x = [] := List.eq_nil_of_length_eq_zero hl
      subst this
      exact ⟨[0x7f#8, 0x45#8, 0x4c#8, 0x46#8, if m.wide then 2#8 else 1#8], [1#8] ++ y, by rw [hx]; rfl, rfl⟩
    exact this.field (by decide)
  have c3 : Elf.field g 6 1 = some 1 := by
    have : At g 6 (le 1 1) := by
      obtain ⟨x, y, hx, hl⟩ := a2
      have : x = [] := List.eq_nil_of_length_eq_zero hl
      subst this
      exact ⟨[0x7f#8, 0x45#8, 0x4c#8, 0x46#8, if m.wide then 2#8 else 1#8, 1#8], y, by rw [hx]; rfl, rfl⟩
    exact this.field (by decide)
  simp only [List.length_append, le_length, List.length_cons, List.length_nil, List.length_replicate] at r4 r5 r9 r13 r14 r15
  have hcls : width (decide ((if m.wide then 2 else 1) = 2)) = width m.wide := by cases m.wide <;> rfl
  have hcls' : decide ((if m.wide then 2 else 1) = 2) = m.wide := by cases m.wide <;> rfl
  generalize hw : width m.wide = w at *
  have q4 : Elf.field g 16 2 = some 1 := by rw [← r4]
  have q5 : Elf.field g 18 2 = some (if m = .x86 then 3 else 62) := by rw [← r5]
  have q9 : Elf.field g (24 + 2 * w) w = some shoff := by rw [← r9]; congr 1; omega
  have q13 : Elf.field g (34 + 3 * w) 2 = some m.shdrSize := by rw [← r13]; congr 1; omega
  have q14 : Elf.field g (36 + 3 * w) 2 = some shnum := by rw [← r14]; congr 1; omega
  have q15 : Elf.field g (38 + 3 * w) 2 = some shstrndx := by rw [← r15]; congr 1; omega
  unfold ehdr
  rw [hm, c1, c2, c3]
  simp only [guard, if_true, Option.bind_eq_bind, Option.bind_some, Option.pure_def]
  rw [if_pos (by cases m.wide <;> simp)]
  simp only [Option.bind_some, hcls, q4, q5, q9, q13, q14, q15, if_true]
  rw [hcls']

end Verif.Elf
