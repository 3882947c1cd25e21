import Verif.Lc3b.Emit
/-
C88: every LC-3b instruction does what its line says.
-/
namespace Verif.Lc3b
open Verif.Intnum

attribute [local irreducible] calcI emits

theorem ok_of (name : List Char) (l : Line) (hn : name.map Char.toLower = l.name) (c : Nat) (g : List Info × Nat) (e : Enc)
    (hg : (names.find? fun x => x.1 = l.name).map (·.2) = some g) (he : finalize g.1 g.2 l.operands = some e) (hs : inSpan e = true) :
    assemble name l.operands c = .ok (emits c e) := by
  unfold assemble lookup
  rw [hn, hg]
  obtain ⟨g, m⟩ := g
  have he : finalize g m l.operands = some e := he
  simp only [he, hs, if_true]

/-- The fields that follow. -/
theorem low5 (w : Nat) (v : Int) (h : ((w % 2 ^ 5 : Nat) : Int) = v % 2 ^ 5) (hv : -16 ≤ v ∧ v < 16) : low 5 w = v := by
  unfold low
  split <;> omega
theorem low6 (w : Nat) (v : Int) (h : ((w % 2 ^ 6 : Nat) : Int) = v % 2 ^ 6) (hv : -32 ≤ v ∧ v < 32) : low 6 w = v := by
  unfold low
  split <;> omega
theorem low9 (w : Nat) (v : Int) (h : ((w % 2 ^ 9 : Nat) : Int) = v % 2 ^ 9) (hv : -256 ≤ v ∧ v < 256) : low 9 w = v := by
  unfold low
  split <;> omega

/-! ### Each kind of line -/

theorem regs2 (d s : Fin 8) : ∀ B ∈ [0x1000, 0x1020, 0x5000, 0x5020, 0x2000, 0x3000, 0xA000, 0xB000, 0x6000, 0x7000, 0x903F, 0xD000, 0xD010, 0xD030],
    (B ||| (d.val % 8) <<< 9) ||| (s.val % 8) <<< 6 = B + 512 * d + 64 * s := by
  revert d s
  decide +kernel

theorem regs1 (d : Fin 8) : ∀ B ∈ [0xC000, 0xE000], B ||| (d.val % 8) <<< 9 = B + 512 * d := by
  revert d
  decide +kernel

theorem reg_num (t : Fin 8) : Fits (createUint (BitVec.ofNat 64 (t.val % 8))) ∧ val (createUint (BitVec.ofNat 64 (t.val % 8))) = t.val := by
  have := uint_small (t.val % 8) (by omega)
  rw [Nat.mod_eq_of_lt t.isLt] at this ⊢
  exact this

theorem bit_true (w i : Nat) (h : w / 2 ^ i % 2 = 1) : bit w i = true := by unfold bit; simp [h]
theorem bit_false (w i : Nat) (h : w / 2 ^ i % 2 = 0) : bit w i = false := by unfold bit; simp [h]

/-- A line is assembled and every copy of it is read as what it means. -/
def Good (l : Line) (name : List Char) (c : Nat) : Prop :=
  ∃ r, assemble name l.operands c = .ok r ∧ AllRead r c fun k => l.means k

theorem add_ok (d s t : Fin 8) (name : List Char) (c : Nat) (hn : name.map Char.toLower = (Line.alu false d s t).name) : Good (Line.alu false d s t) name c := by
  obtain ⟨f, v⟩ := reg_num t
  have ht := t.isLt
  have hd := d.isLt
  have hs := s.isLt
  have ho := regs2 d s 0x1000 (by decide)
  refine ⟨_, ok_of name _ hn c (addand, 0) _ (by show (names.find? fun x => x.1 = "add".toList).map (·.2) = _; with_unfolding_all decide +kernel) rfl rfl,
    imm_read ((0x1000 ||| (d.val % 8) <<< 9) ||| (s.val % 8) <<< 6) (by omega) .i5 5 true rfl (by decide) _ f (by rw [v]; simp; omega) c _ ?_⟩
  rw [ho, v]
  obtain ⟨h1, h2⟩ := filled_mod (0x1000 + 512 * d + 64 * s) 5 ((t.val : Int))
  generalize filled (0x1000 + 512 * d + 64 * s) 5 ((t.val : Int)) = w at *
  have hA : regA w = d := by unfold regA; omega
  have hB : regB w = s := by unfold regB; omega
  have hb : bit w 5 = false := bit_false w 5 (by omega)
  have ht' : w % 8 = t := by omega
  have hl : w % 32 < 8 := by omega
  unfold decode
  rw [show w / 4096 = 1 by omega]
  simp only [hA, hB, hb, ht', hl, if_true, Bool.false_eq_true, if_false]
  try rfl

theorem and_ok (d s t : Fin 8) (name : List Char) (c : Nat) (hn : name.map Char.toLower = (Line.alu true d s t).name) : Good (Line.alu true d s t) name c := by
  obtain ⟨f, v⟩ := reg_num t
  have ht := t.isLt
  have hd := d.isLt
  have hs := s.isLt
  have ho := regs2 d s 0x5000 (by decide)
  refine ⟨_, ok_of name _ hn c (addand, 0x40) _ (by show (names.find? fun x => x.1 = "and".toList).map (·.2) = _; with_unfolding_all decide +kernel) rfl rfl,
    imm_read ((0x5000 ||| (d.val % 8) <<< 9) ||| (s.val % 8) <<< 6) (by omega) .i5 5 true rfl (by decide) _ f (by rw [v]; simp; omega) c _ ?_⟩
  rw [ho, v]
  obtain ⟨h1, h2⟩ := filled_mod (0x5000 + 512 * d + 64 * s) 5 ((t.val : Int))
  generalize filled (0x5000 + 512 * d + 64 * s) 5 ((t.val : Int)) = w at *
  have hA : regA w = d := by unfold regA; omega
  have hB : regB w = s := by unfold regB; omega
  have hb : bit w 5 = false := bit_false w 5 (by omega)
  have ht' : w % 8 = t := by omega
  have hl : w % 32 < 8 := by omega
  unfold decode
  rw [show w / 4096 = 5 by omega]
  simp only [hA, hB, hb, ht', hl, if_true, Bool.false_eq_true, if_false]
  try rfl

theorem addi_ok (d s : Fin 8) (x : Intnum) (name : List Char) (c : Nat) (hn : name.map Char.toLower = (Line.alui false d s x).name) (hx : Fits x) (hr : -16 ≤ val x ∧ val x < 16) : Good (Line.alui false d s x) name c := by
  have v : val x = val x := rfl
  have hd := d.isLt
  have hs := s.isLt
  have ho := regs2 d s 0x1020 (by decide)
  refine ⟨_, ok_of name _ hn c (addand, 0) _ (by show (names.find? fun x => x.1 = "add".toList).map (·.2) = _; with_unfolding_all decide +kernel) rfl rfl,
    imm_read ((0x1020 ||| (d.val % 8) <<< 9) ||| (s.val % 8) <<< 6) (by omega) .i5 5 true rfl (by decide) _ hx (by rw [v]; simp; omega) c _ ?_⟩
  rw [ho, v]
  obtain ⟨h1, h2⟩ := filled_mod (0x1020 + 512 * d + 64 * s) 5 (val x)
  generalize filled (0x1020 + 512 * d + 64 * s) 5 (val x) = w at *
  have hA : regA w = d := by unfold regA; omega
  have hB : regB w = s := by unfold regB; omega
  have hb : bit w 5 = true := bit_true w 5 (by omega)
  have hl : low 5 w = val x := low5 w _ h1 ⟨hr.1, hr.2⟩
  unfold decode
  rw [show w / 4096 = 1 by omega]
  simp only [hA, hB, hb, hl, if_true]
  try rfl

theorem andi_ok (d s : Fin 8) (x : Intnum) (name : List Char) (c : Nat) (hn : name.map Char.toLower = (Line.alui true d s x).name) (hx : Fits x) (hr : -16 ≤ val x ∧ val x < 16) : Good (Line.alui true d s x) name c := by
  have v : val x = val x := rfl
  have hd := d.isLt
  have hs := s.isLt
  have ho := regs2 d s 0x5020 (by decide)
  refine ⟨_, ok_of name _ hn c (addand, 0x40) _ (by show (names.find? fun x => x.1 = "and".toList).map (·.2) = _; with_unfolding_all decide +kernel) rfl rfl,
    imm_read ((0x5020 ||| (d.val % 8) <<< 9) ||| (s.val % 8) <<< 6) (by omega) .i5 5 true rfl (by decide) _ hx (by rw [v]; simp; omega) c _ ?_⟩
  rw [ho, v]
  obtain ⟨h1, h2⟩ := filled_mod (0x5020 + 512 * d + 64 * s) 5 (val x)
  generalize filled (0x5020 + 512 * d + 64 * s) 5 (val x) = w at *
  have hA : regA w = d := by unfold regA; omega
  have hB : regB w = s := by unfold regB; omega
  have hb : bit w 5 = true := bit_true w 5 (by omega)
  have hl : low 5 w = val x := low5 w _ h1 ⟨hr.1, hr.2⟩
  unfold decode
  rw [show w / 4096 = 5 by omega]
  simp only [hA, hB, hb, hl, if_true]
  try rfl

theorem ld_ok (d s : Fin 8) (x : Intnum) (name : List Char) (c : Nat) (hn : name.map Char.toLower = (Line.mem .ld d s x).name) (hx : Fits x) (hr : val x % 2 = 0 ∧ -64 ≤ val x ∧ val x < 64) : Good (Line.mem .ld d s x) name c := by
  obtain ⟨f, v⟩ := shr_one x hx
  have hd := d.isLt
  have hs := s.isLt
  have ho := regs2 d s 0x2000 (by decide)
  refine ⟨_, ok_of name _ hn c (ldst, 0x20) _ (by show (names.find? fun x => x.1 = "ld".toList).map (·.2) = _; with_unfolding_all decide +kernel) rfl rfl,
    imm_read ((0x2000 ||| (d.val % 8) <<< 9) ||| (s.val % 8) <<< 6) (by omega) .w6 6 false rfl (by decide) _ f (by rw [v]; simp; omega) c _ ?_⟩
  rw [ho, v]
  obtain ⟨h1, h2⟩ := filled_mod (0x2000 + 512 * d + 64 * s) 6 (val x / 2)
  generalize filled (0x2000 + 512 * d + 64 * s) 6 (val x / 2) = w at *
  have hA : regA w = d := by unfold regA; omega
  have hB : regB w = s := by unfold regB; omega
  have hl : low 6 w = val x / 2 := low6 w _ h1 (by omega)
  unfold decode
  rw [show w / 4096 = 2 by omega]
  simp only [hA, hB, hl]
  show some (Mach.mem _ _ _ _) = some (Mach.mem _ _ _ (val x))
  rw [show 2 * (val x / 2) = val x by omega]

theorem ldi_ok (d s : Fin 8) (x : Intnum) (name : List Char) (c : Nat) (hn : name.map Char.toLower = (Line.mem .ldi d s x).name) (hx : Fits x) (hr : val x % 2 = 0 ∧ -64 ≤ val x ∧ val x < 64) : Good (Line.mem .ldi d s x) name c := by
  obtain ⟨f, v⟩ := shr_one x hx
  have hd := d.isLt
  have hs := s.isLt
  have ho := regs2 d s 0xA000 (by decide)
  refine ⟨_, ok_of name _ hn c (ldst, 0xA0) _ (by show (names.find? fun x => x.1 = "ldi".toList).map (·.2) = _; with_unfolding_all decide +kernel) rfl rfl,
    imm_read ((0xA000 ||| (d.val % 8) <<< 9) ||| (s.val % 8) <<< 6) (by omega) .w6 6 false rfl (by decide) _ f (by rw [v]; simp; omega) c _ ?_⟩
  rw [ho, v]
  obtain ⟨h1, h2⟩ := filled_mod (0xA000 + 512 * d + 64 * s) 6 (val x / 2)
  generalize filled (0xA000 + 512 * d + 64 * s) 6 (val x / 2) = w at *
  have hA : regA w = d := by unfold regA; omega
  have hB : regB w = s := by unfold regB; omega
  have hl : low 6 w = val x / 2 := low6 w _ h1 (by omega)
  unfold decode
  rw [show w / 4096 = 10 by omega]
  simp only [hA, hB, hl]
  show some (Mach.mem _ _ _ _) = some (Mach.mem _ _ _ (val x))
  rw [show 2 * (val x / 2) = val x by omega]

theorem st_ok (d s : Fin 8) (x : Intnum) (name : List Char) (c : Nat) (hn : name.map Char.toLower = (Line.mem .st d s x).name) (hx : Fits x) (hr : val x % 2 = 0 ∧ -64 ≤ val x ∧ val x < 64) : Good (Line.mem .st d s x) name c := by
  obtain ⟨f, v⟩ := shr_one x hx
  have hd := d.isLt
  have hs := s.isLt
  have ho := regs2 d s 0x3000 (by decide)
  refine ⟨_, ok_of name _ hn c (ldst, 0x30) _ (by show (names.find? fun x => x.1 = "st".toList).map (·.2) = _; with_unfolding_all decide +kernel) rfl rfl,
    imm_read ((0x3000 ||| (d.val % 8) <<< 9) ||| (s.val % 8) <<< 6) (by omega) .w6 6 false rfl (by decide) _ f (by rw [v]; simp; omega) c _ ?_⟩
  rw [ho, v]
  obtain ⟨h1, h2⟩ := filled_mod (0x3000 + 512 * d + 64 * s) 6 (val x / 2)
  generalize filled (0x3000 + 512 * d + 64 * s) 6 (val x / 2) = w at *
  have hA : regA w = d := by unfold regA; omega
  have hB : regB w = s := by unfold regB; omega
  have hl : low 6 w = val x / 2 := low6 w _ h1 (by omega)
  unfold decode
  rw [show w / 4096 = 3 by omega]
  simp only [hA, hB, hl]
  show some (Mach.mem _ _ _ _) = some (Mach.mem _ _ _ (val x))
  rw [show 2 * (val x / 2) = val x by omega]

theorem sti_ok (d s : Fin 8) (x : Intnum) (name : List Char) (c : Nat) (hn : name.map Char.toLower = (Line.mem .sti d s x).name) (hx : Fits x) (hr : val x % 2 = 0 ∧ -64 ≤ val x ∧ val x < 64) : Good (Line.mem .sti d s x) name c := by
  obtain ⟨f, v⟩ := shr_one x hx
  have hd := d.isLt
  have hs := s.isLt
  have ho := regs2 d s 0xB000 (by decide)
  refine ⟨_, ok_of name _ hn c (ldst, 0xB0) _ (by show (names.find? fun x => x.1 = "sti".toList).map (·.2) = _; with_unfolding_all decide +kernel) rfl rfl,
    imm_read ((0xB000 ||| (d.val % 8) <<< 9) ||| (s.val % 8) <<< 6) (by omega) .w6 6 false rfl (by decide) _ f (by rw [v]; simp; omega) c _ ?_⟩
  rw [ho, v]
  obtain ⟨h1, h2⟩ := filled_mod (0xB000 + 512 * d + 64 * s) 6 (val x / 2)
  generalize filled (0xB000 + 512 * d + 64 * s) 6 (val x / 2) = w at *
  have hA : regA w = d := by unfold regA; omega
  have hB : regB w = s := by unfold regB; omega
  have hl : low 6 w = val x / 2 := low6 w _ h1 (by omega)
  unfold decode
  rw [show w / 4096 = 11 by omega]
  simp only [hA, hB, hl]
  show some (Mach.mem _ _ _ _) = some (Mach.mem _ _ _ (val x))
  rw [show 2 * (val x / 2) = val x by omega]

theorem ldb_ok (d s : Fin 8) (x : Intnum) (name : List Char) (c : Nat) (hn : name.map Char.toLower = (Line.mem .ldb d s x).name) (hx : Fits x) (hr : -32 ≤ val x ∧ val x < 32) : Good (Line.mem .ldb d s x) name c := by
  have v : val x = val x := rfl
  have hd := d.isLt
  have hs := s.isLt
  have ho := regs2 d s 0x6000 (by decide)
  refine ⟨_, ok_of name _ hn c (ldstb, 0x60) _ (by show (names.find? fun x => x.1 = "ldb".toList).map (·.2) = _; with_unfolding_all decide +kernel) rfl rfl,
    imm_read ((0x6000 ||| (d.val % 8) <<< 9) ||| (s.val % 8) <<< 6) (by omega) .b6 6 true rfl (by decide) _ hx (by rw [v]; simp; omega) c _ ?_⟩
  rw [ho, v]
  obtain ⟨h1, h2⟩ := filled_mod (0x6000 + 512 * d + 64 * s) 6 (val x)
  generalize filled (0x6000 + 512 * d + 64 * s) 6 (val x) = w at *
  have hA : regA w = d := by unfold regA; omega
  have hB : regB w = s := by unfold regB; omega
  have hl : low 6 w = val x := low6 w _ h1 ⟨hr.1, hr.2⟩
  unfold decode
  rw [show w / 4096 = 6 by omega]
  simp only [hA, hB, hl]
  try rfl

theorem stb_ok (d s : Fin 8) (x : Intnum) (name : List Char) (c : Nat) (hn : name.map Char.toLower = (Line.mem .stb d s x).name) (hx : Fits x) (hr : -32 ≤ val x ∧ val x < 32) : Good (Line.mem .stb d s x) name c := by
  have v : val x = val x := rfl
  have hd := d.isLt
  have hs := s.isLt
  have ho := regs2 d s 0x7000 (by decide)
  refine ⟨_, ok_of name _ hn c (ldstb, 0x70) _ (by show (names.find? fun x => x.1 = "stb".toList).map (·.2) = _; with_unfolding_all decide +kernel) rfl rfl,
    imm_read ((0x7000 ||| (d.val % 8) <<< 9) ||| (s.val % 8) <<< 6) (by omega) .b6 6 true rfl (by decide) _ hx (by rw [v]; simp; omega) c _ ?_⟩
  rw [ho, v]
  obtain ⟨h1, h2⟩ := filled_mod (0x7000 + 512 * d + 64 * s) 6 (val x)
  generalize filled (0x7000 + 512 * d + 64 * s) 6 (val x) = w at *
  have hA : regA w = d := by unfold regA; omega
  have hB : regB w = s := by unfold regB; omega
  have hl : low 6 w = val x := low6 w _ h1 ⟨hr.1, hr.2⟩
  unfold decode
  rw [show w / 4096 = 7 by omega]
  simp only [hA, hB, hl]
  try rfl

theorem lshf_ok (d s : Fin 8) (x : Intnum) (name : List Char) (c : Nat) (hn : name.map Char.toLower = (Line.shift .left d s x).name) (hx : Fits x) (hr : 0 ≤ val x ∧ val x < 16) : Good (Line.shift .left d s x) name c := by
  have v : val x = val x := rfl
  have hd := d.isLt
  have hs := s.isLt
  have ho := regs2 d s 0xD000 (by decide)
  refine ⟨_, ok_of name _ hn c (shiftGroup, 0) _ (by show (names.find? fun x => x.1 = "lshf".toList).map (·.2) = _; with_unfolding_all decide +kernel) rfl rfl,
    imm_read ((0xD000 ||| (d.val % 8) <<< 9) ||| (s.val % 8) <<< 6) (by omega) .i4 4 false rfl (by decide) _ hx (by rw [v]; simp; omega) c _ ?_⟩
  rw [ho, v]
  obtain ⟨h1, h2⟩ := filled_mod (0xD000 + 512 * d + 64 * s) 4 (val x)
  generalize filled (0xD000 + 512 * d + 64 * s) 4 (val x) = w at *
  have hA : regA w = d := by unfold regA; omega
  have hB : regB w = s := by unfold regB; omega
  have hq : w / 16 % 4 = 0 := by omega
  have hl : w % 16 = (val x).toNat := by omega
  unfold decode
  rw [show w / 4096 = 13 by omega]
  simp only [hA, hB, hq, hl]
  try rfl

theorem rshfl_ok (d s : Fin 8) (x : Intnum) (name : List Char) (c : Nat) (hn : name.map Char.toLower = (Line.shift .logical d s x).name) (hx : Fits x) (hr : 0 ≤ val x ∧ val x < 16) : Good (Line.shift .logical d s x) name c := by
  have v : val x = val x := rfl
  have hd := d.isLt
  have hs := s.isLt
  have ho := regs2 d s 0xD010 (by decide)
  refine ⟨_, ok_of name _ hn c (shiftGroup, 0x10) _ (by show (names.find? fun x => x.1 = "rshfl".toList).map (·.2) = _; with_unfolding_all decide +kernel) rfl rfl,
    imm_read ((0xD010 ||| (d.val % 8) <<< 9) ||| (s.val % 8) <<< 6) (by omega) .i4 4 false rfl (by decide) _ hx (by rw [v]; simp; omega) c _ ?_⟩
  rw [ho, v]
  obtain ⟨h1, h2⟩ := filled_mod (0xD010 + 512 * d + 64 * s) 4 (val x)
  generalize filled (0xD010 + 512 * d + 64 * s) 4 (val x) = w at *
  have hA : regA w = d := by unfold regA; omega
  have hB : regB w = s := by unfold regB; omega
  have hq : w / 16 % 4 = 1 := by omega
  have hl : w % 16 = (val x).toNat := by omega
  unfold decode
  rw [show w / 4096 = 13 by omega]
  simp only [hA, hB, hq, hl]
  try rfl

theorem rshfa_ok (d s : Fin 8) (x : Intnum) (name : List Char) (c : Nat) (hn : name.map Char.toLower = (Line.shift .arithmetic d s x).name) (hx : Fits x) (hr : 0 ≤ val x ∧ val x < 16) : Good (Line.shift .arithmetic d s x) name c := by
  have v : val x = val x := rfl
  have hd := d.isLt
  have hs := s.isLt
  have ho := regs2 d s 0xD030 (by decide)
  refine ⟨_, ok_of name _ hn c (shiftGroup, 0x30) _ (by show (names.find? fun x => x.1 = "rshfa".toList).map (·.2) = _; with_unfolding_all decide +kernel) rfl rfl,
    imm_read ((0xD030 ||| (d.val % 8) <<< 9) ||| (s.val % 8) <<< 6) (by omega) .i4 4 false rfl (by decide) _ hx (by rw [v]; simp; omega) c _ ?_⟩
  rw [ho, v]
  obtain ⟨h1, h2⟩ := filled_mod (0xD030 + 512 * d + 64 * s) 4 (val x)
  generalize filled (0xD030 + 512 * d + 64 * s) 4 (val x) = w at *
  have hA : regA w = d := by unfold regA; omega
  have hB : regB w = s := by unfold regB; omega
  have hq : w / 16 % 4 = 3 := by omega
  have hl : w % 16 = (val x).toNat := by omega
  unfold decode
  rw [show w / 4096 = 13 by omega]
  simp only [hA, hB, hq, hl]
  try rfl

theorem jmp_ok (d : Fin 8) (x : Intnum) (name : List Char) (c : Nat) (hn : name.map Char.toLower = (Line.jmp d x).name) (hx : Fits x)
    (hr : val x % 2 = 0 ∧ -512 ≤ val x ∧ val x < 512) : Good (.jmp d x) name c := by
  obtain ⟨f, v⟩ := shr_one x hx
  have hd := d.isLt
  have ho := regs1 d 0xC000 (by decide)
  refine ⟨_, ok_of name _ hn c (jmpGroup, 0) _ (by show (names.find? fun x => x.1 = "jmp".toList).map (·.2) = _; with_unfolding_all decide +kernel) rfl rfl,
    imm_read (0xC000 ||| (d.val % 8) <<< 9) (by omega) .w9 9 false rfl (by decide) _ f (by rw [v]; simp; omega) c _ ?_⟩
  rw [ho, v]
  obtain ⟨h1, h2⟩ := filled_mod (0xC000 + 512 * d) 9 (val x / 2)
  generalize filled (0xC000 + 512 * d) 9 (val x / 2) = w at *
  have hA : regA w = d := by unfold regA; omega
  have hl : low 9 w = val x / 2 := low9 w _ h1 (by omega)
  unfold decode
  rw [show w / 4096 = 12 by omega]
  simp only [hA, hl]
  show some (Mach.jmp _ _) = some (Mach.jmp _ (val x))
  rw [show 2 * (val x / 2) = val x by omega]

theorem trap_ok (x : Intnum) (name : List Char) (c : Nat) (hn : name.map Char.toLower = (Line.trap x).name) (hx : Fits x)
    (hr : val x % 2 = 0 ∧ 0 ≤ val x ∧ val x < 512) : Good (.trap x) name c := by
  obtain ⟨f, v⟩ := shr_one x hx
  refine ⟨_, ok_of name _ hn c (trapGroup, 0) _ (by show (names.find? fun x => x.1 = "trap".toList).map (·.2) = _; with_unfolding_all decide +kernel) rfl rfl,
    imm_read 0xF000 (by omega) .w8 8 false rfl (by decide) _ f (by rw [v]; simp; omega) c _ ?_⟩
  rw [v]
  obtain ⟨h1, h2⟩ := filled_mod 0xF000 8 (val x / 2)
  generalize filled 0xF000 8 (val x / 2) = w at *
  have hz : w / 256 % 16 = 0 := by omega
  have hl : 2 * (w % 256) = (val x).toNat := by omega
  unfold decode
  rw [show w / 4096 = 15 by omega]
  simp only [hz, hl, if_true]

theorem not_ok (d s : Fin 8) (name : List Char) (c : Nat) (hn : name.map Char.toLower = (Line.inv d s).name) : Good (.inv d s) name c := by
  have hd := d.isLt
  have hs := s.isLt
  have ho := regs2 d s 0x903F (by decide)
  refine ⟨_, ok_of name _ hn c (notGroup, 0) _ (by show (names.find? fun x => x.1 = "not".toList).map (·.2) = _; with_unfolding_all decide +kernel) rfl rfl,
    plain_read ((0x903F ||| (d.val % 8) <<< 9) ||| (s.val % 8) <<< 6) (by omega) c _ ?_⟩
  rw [ho]
  have hA : regA (0x903F + 512 * d + 64 * s) = d := by unfold regA; omega
  have hB : regB (0x903F + 512 * d + 64 * s) = s := by unfold regB; omega
  unfold decode
  rw [show (0x903F + 512 * d.val + 64 * s) / 4096 = 9 by omega]
  simp only [hA, hB, show (0x903F + 512 * d.val + 64 * s) % 64 = 63 by omega, if_true]

theorem ret_ok (name : List Char) (c : Nat) (hn : name.map Char.toLower = Line.ret.name) : Good .ret name c :=
  ⟨_, ok_of name .ret hn c (nooperand, 0xCE) ⟨0xCE00, .none, ⟨none, none⟩⟩ (by show (names.find? fun x => x.1 = "ret".toList).map (·.2) = _; with_unfolding_all decide +kernel) rfl rfl, plain_read 0xCE00 (by decide) c _ rfl⟩

theorem rti_ok (name : List Char) (c : Nat) (hn : name.map Char.toLower = Line.rti.name) : Good .rti name c :=
  ⟨_, ok_of name .rti hn c (nooperand, 0x80) ⟨0x8000, .none, ⟨none, none⟩⟩ (by show (names.find? fun x => x.1 = "rti".toList).map (·.2) = _; with_unfolding_all decide +kernel) rfl rfl, plain_read 0x8000 (by decide) c _ rfl⟩

theorem nop_ok (name : List Char) (c : Nat) (hn : name.map Char.toLower = Line.nop.name) : Good .nop name c :=
  ⟨_, ok_of name .nop hn c (nooperand, 0) ⟨0, .none, ⟨none, none⟩⟩ (by show (names.find? fun x => x.1 = "nop".toList).map (·.2) = _; with_unfolding_all decide +kernel) rfl rfl, plain_read 0 (by decide) c _ rfl⟩

/-! ### Jumps -/

theorem target_jump (t : Target) (hf : ∀ x, t = .num x → Fits x) (hr : Reach t.disp) :
    Jump (immediate .pc9 t.operand) ∧ total (immediate .pc9 t.operand) = t.disp / 2 ∧
      ∀ o, inSpan ⟨o, .pc9, immediate .pc9 t.operand⟩ = true := by
  cases t with
  | label d =>
    have hr : d % 2 = 0 ∧ -510 ≤ d ∧ d ≤ 512 := hr
    refine ⟨⟨fun d' s h => ?_, fun a h => (by cases h), (by show -(2 ^ 40) ≤ (0 : Int) ∧ (0 : Int) ≤ 2 ^ 40; decide)⟩, ?_, fun o => ?_⟩
    · injection h with h
      injection h with h h'
      subst h
      subst h'
      exact ⟨rfl, by omega⟩
    · show (0 : Int) + d / 2 ^ 1 = d / 2
      omega
    · have h1 : -510 ≤ (0 : Int) + d / 2 ^ 1 := by omega
      have h2 : (0 : Int) + d / 2 ^ 1 ≤ 513 := by omega
      show (decide (-510 ≤ (0 : Int) + d / 2 ^ 1) && decide ((0 : Int) + d / 2 ^ 1 ≤ 513)) = true
      rw [decide_eq_true h1, decide_eq_true h2]
      rfl
  | num x =>
    have hr : val x % 2 = 0 ∧ -510 ≤ val x ∧ val x ≤ 512 := hr
    obtain ⟨c, v⟩ := shr_canon x (hf x rfl)
    have hi := getInt_small _ c (by rw [v]; omega)
    refine ⟨⟨fun d' s h => (by cases h), fun a h => ?_, ?_⟩, ?_, fun o => ?_⟩
    · injection h with h
      rw [← h]
      exact c.fits
    · show -(2 ^ 40) ≤ val (calcI x .SHR (.L 1#64)) ∧ val (calcI x .SHR (.L 1#64)) ≤ 2 ^ 40
      rw [v]
      omega
    · show val (calcI x .SHR (.L 1#64)) + 0 = val x / 2
      rw [v]
      omega
    · show (decide (-510 ≤ (getInt (calcI x .SHR (.L 1#64))).toInt + 0) && decide ((getInt (calcI x .SHR (.L 1#64))).toInt + 0 ≤ 513)) = true
      rw [hi, v]
      have h1 : -510 ≤ val x / 2 + 0 := by omega
      have h2 : val x / 2 + 0 ≤ 513 := by omega
      rw [decide_eq_true h1, decide_eq_true h2]
      rfl

theorem jump_read (o : Nat) (ho : o < 65536) (t : Target) (c : Nat) (m : Int → Mach)
    (hr : (∀ x, t = .num x → Fits x) ∧ Reach t.disp ∧ Reach (t.disp - 2 * (c - 1 : Nat)))
    (hm : ∀ (w : Nat) (d : Int), w / 2 ^ 9 = o / 2 ^ 9 → 2 + 2 * low 9 w = t.disp - d → decode w = some (m d)) :
    AllRead (emits c ⟨o, .pc9, immediate .pc9 t.operand⟩) c m := by
  obtain ⟨hf, h1, h2⟩ := hr
  obtain ⟨j, ht, _⟩ := target_jump t hf h1
  have h1 : t.disp % 2 = 0 ∧ -510 ≤ t.disp ∧ t.disp ≤ 512 := h1
  have h2 : (t.disp - 2 * (c - 1 : Nat)) % 2 = 0 ∧ -510 ≤ t.disp - 2 * (c - 1 : Nat) ∧ t.disp - 2 * (c - 1 : Nat) ≤ 512 := h2
  refine pc_read o ho m (t.disp / 2) (by omega) c (fun i hi => ?_) (by omega) _ j ht
  obtain ⟨q1, q2⟩ := filled_mod o 9 (t.disp / 2 - i - 1)
  refine hm _ _ q2 ?_
  rw [low9 _ _ q1 (by omega)]
  omega

theorem br_ok (n z p : Bool) (t : Target) (name : List Char) (c : Nat) (hn : name.map Char.toLower = (Line.br n z p t).name)
    (hr : (Line.br n z p t).InRange c) : Good (.br n z p t) name c := by
  have key (mod : Nat) (hmod : mod = (if n then 8 else 0) + (if z then 4 else 0) + if p then 2 else 0)
      (hf : (names.find? fun x => x.1 = (Line.br n z p t).name).map (·.2) = some (brGroup, mod)) : Good (.br n z p t) name c := by
    have hb : base ⟨true, false, 0, [imm .pc9]⟩ mod = mod * 256 := by
      subst hmod; cases n <;> cases z <;> cases p <;> rfl
    have hfin : finalize brGroup mod (Line.br n z p t).operands = some ⟨mod * 256, .pc9, immediate .pc9 t.operand⟩ := by
      rw [← hb]
      cases t <;> rfl
    refine ⟨_, ok_of name _ hn c (brGroup, mod) _ hf hfin ((target_jump t hr.1 hr.2.1).2.2 _), jump_read _ ?_ t c _ hr ?_⟩
    · subst hmod; cases n <;> cases z <;> cases p <;> decide
    · intro w d h1 h2
      unfold decode
      have hw : w / 4096 = 0 := by subst hmod; cases n <;> cases z <;> cases p <;> simp at h1 <;> omega
      have b1 : bit w 11 = n := by
        subst hmod; unfold bit; cases n <;> cases z <;> cases p <;> simp at h1 ⊢ <;> omega
      have b2 : bit w 10 = z := by
        subst hmod; unfold bit; cases n <;> cases z <;> cases p <;> simp at h1 ⊢ <;> omega
      have b3 : bit w 9 = p := by
        subst hmod; unfold bit; cases n <;> cases z <;> cases p <;> simp at h1 ⊢ <;> omega
      rw [hw]
      simp only [b1, b2, b3, h2]
      rfl
  cases n <;> cases z <;> cases p
  · exact key 0 rfl (by show (names.find? fun x => x.1 = "br".toList).map (·.2) = _; with_unfolding_all decide +kernel)
  · exact key 2 rfl (by show (names.find? fun x => x.1 = "brp".toList).map (·.2) = _; with_unfolding_all decide +kernel)
  · exact key 4 rfl (by show (names.find? fun x => x.1 = "brz".toList).map (·.2) = _; with_unfolding_all decide +kernel)
  · exact key 6 rfl (by show (names.find? fun x => x.1 = "brzp".toList).map (·.2) = _; with_unfolding_all decide +kernel)
  · exact key 8 rfl (by show (names.find? fun x => x.1 = "brn".toList).map (·.2) = _; with_unfolding_all decide +kernel)
  · exact key 10 rfl (by show (names.find? fun x => x.1 = "brnp".toList).map (·.2) = _; with_unfolding_all decide +kernel)
  · exact key 12 rfl (by show (names.find? fun x => x.1 = "brnz".toList).map (·.2) = _; with_unfolding_all decide +kernel)
  · exact key 14 rfl (by show (names.find? fun x => x.1 = "brnzp".toList).map (·.2) = _; with_unfolding_all decide +kernel)

theorem jsr_ok (t : Target) (name : List Char) (c : Nat) (hn : name.map Char.toLower = (Line.jsr t).name)
    (hr : (Line.jsr t).InRange c) : Good (.jsr t) name c := by
  have hfin : finalize brGroup 0x40 (Line.jsr t).operands = some ⟨0x4000, .pc9, immediate .pc9 t.operand⟩ := by cases t <;> rfl
  refine ⟨_, ok_of name _ hn c (brGroup, 0x40) _ (by show (names.find? fun x => x.1 = "jsr".toList).map (·.2) = _; with_unfolding_all decide +kernel)
    hfin ((target_jump t hr.1 hr.2.1).2.2 _), jump_read _ (by decide) t c _ hr ?_⟩
  intro w d h1 h2
  have hA : regA w = 0 := by unfold regA; omega
  unfold decode
  rw [show w / 4096 = 4 by omega]
  simp only [hA, h2, if_true]
  rfl

theorem lea_ok (d : Fin 8) (t : Target) (name : List Char) (c : Nat) (hn : name.map Char.toLower = (Line.lea d t).name)
    (hr : (Line.lea d t).InRange c) : Good (.lea d t) name c := by
  have hd := d.isLt
  have ho := regs1 d 0xE000 (by decide)
  have hfin : finalize leaGroup 0 (Line.lea d t).operands = some ⟨0xE000 ||| (d.val % 8) <<< 9, .pc9, immediate .pc9 t.operand⟩ := by cases t <;> rfl
  refine ⟨_, ok_of name _ hn c (leaGroup, 0) _ (by show (names.find? fun x => x.1 = "lea".toList).map (·.2) = _; with_unfolding_all decide +kernel)
    hfin ((target_jump t hr.1 hr.2.1).2.2 _), jump_read _ (by omega) t c _ hr ?_⟩
  rw [ho]
  intro w d' h1 h2
  have hA : regA w = d := by unfold regA; omega
  unfold decode
  rw [show w / 4096 = 14 by omega]
  simp only [hA, h2]
  rfl

/-! ### All of them -/

/-- C88: a line with values that its instruction can have is assembled without a warning, with its name in any case; and of as many copies as
    are asked for, each is two bytes that the machine reads as what the line says.  Jumps go to their target from each copy. -/
theorem assembled_partial (l : Line) (c : Nat) (ok : l.InRange c) (name : List Char) (hn : name.map Char.toLower = l.name) :
    ∃ e outs, assemble name l.operands c = .ok (e, outs) ∧ outs.length = c ∧
      ∀ i : Nat, i < c → ∃ bs, outs[i]? = some (.bytes bs []) ∧ read bs = some (l.means (2 * i)) := by
  have key : Good l name c := by
    cases l with
    | alu a d s t => cases a; exact add_ok d s t name c hn; exact and_ok d s t name c hn
    | alui a d s x => cases a; exact addi_ok d s x name c hn ok.1 ok.2; exact andi_ok d s x name c hn ok.1 ok.2
    | br n z p t => exact br_ok n z p t name c hn ok
    | jsr t => exact jsr_ok t name c hn ok
    | jmp r x => exact jmp_ok r x name c hn ok.1 ok.2
    | lea d t => exact lea_ok d t name c hn ok
    | mem k d s x =>
      obtain ⟨o1, o2⟩ := ok
      cases k with
      | ld => exact ld_ok d s x name c hn o1 o2
      | ldi => exact ldi_ok d s x name c hn o1 o2
      | st => exact st_ok d s x name c hn o1 o2
      | sti => exact sti_ok d s x name c hn o1 o2
      | ldb => exact ldb_ok d s x name c hn o1 o2
      | stb => exact stb_ok d s x name c hn o1 o2
    | inv d s => exact not_ok d s name c hn
    | ret => exact ret_ok name c hn
    | rti => exact rti_ok name c hn
    | nop => exact nop_ok name c hn
    | shift k d s x =>
      cases k with
      | left => exact lshf_ok d s x name c hn ok.1 ok.2
      | logical => exact rshfl_ok d s x name c hn ok.1 ok.2
      | arithmetic => exact rshfa_ok d s x name c hn ok.1 ok.2
    | trap x => exact trap_ok x name c hn ok.1 ok.2
  obtain ⟨⟨e, outs⟩, h1, h2, h3⟩ := key
  exact ⟨e, outs, h1, h2, h3⟩

/-- Three copies of `BRnz` 100 bytes back, and an offset at the end of its range. -/
example : (Line.br true true false (.label (-100))).InRange 3 ∧ (Line.mem .ldi 3 5 (.L (-64#64))).InRange 1 ∧
    (Line.lea 1 (.num (.L 512#64))).InRange 1 := by
  refine ⟨⟨fun x h => (by cases h), ?_, ?_⟩, ⟨by unfold Fits; decide, by decide⟩, fun x h => (by cases h; unfold Fits; decide), ?_, ?_⟩ <;>
    unfold Reach <;> decide

example : (assemble "BRnz".toList [.label (-100)] 3).toOption.map (·.2) =
    some [.bytes [0xCD#8, 0x0D#8] [], .bytes [0xCC#8, 0x0D#8] [], .bytes [0xCB#8, 0x0D#8] []] := by
  with_unfolding_all decide +kernel

/-! ### Values out of range -/

/-- The number of a line that is not a jump. -/
def Line.number : Line → Option Intnum
  | .alui _ _ _ x => some x
  | .jmp _ x => some x
  | .mem _ _ _ x => some x
  | .shift _ _ _ x => some x
  | .trap x => some x
  | _ => none

/-- The values that are taken without a warning. -/
def Line.Taken : Line → Prop
  | .alui _ _ _ x => -16 ≤ val x ∧ val x < 16
  | .jmp _ x => -512 ≤ val x ∧ val x < 1024
  | .mem .ldb _ _ x => -32 ≤ val x ∧ val x < 32
  | .mem .stb _ _ x => -32 ≤ val x ∧ val x < 32
  | .mem _ _ _ x => -64 ≤ val x ∧ val x < 128
  | .shift _ _ _ x => -8 ≤ val x ∧ val x < 16
  | .trap x => -256 ≤ val x ∧ val x < 512
  | _ => True

theorem reported_of (name : List Char) (l : Line) (hn : name.map Char.toLower = l.name) (g : List Info × Nat) (o : Nat) (ho : o < 65536)
    (t : ImmT) (n : Nat) (sign : Bool) (ht : fieldOf t = some (n, sign)) (hp : t ≠ .pc9) (x : Intnum) (hx : Fits x)
    (hg : (names.find? fun x => x.1 = l.name).map (·.2) = some g) (he : finalize g.1 g.2 l.operands = some ⟨o, t, ⟨some x, none⟩⟩) (P : Prop)
    (hP : (-(2 ^ (n - 1)) ≤ val x ∧ val x < if sign then 2 ^ (n - 1) else 2 ^ n) ↔ P) :
    ∃ e bs w, assemble name l.operands 1 = .ok (e, [.bytes bs w]) ∧ (w = [] ↔ P) := by
  obtain ⟨a, b, w, e, _, hw⟩ := imm_emit o ho t n sign ht hp x hx
  refine ⟨⟨o, t, ⟨some x, none⟩⟩, [a, b], w, ?_, hw.trans hP⟩
  rw [ok_of name l hn 1 g _ hg he (by unfold inSpan; exact if_neg hp)]
  unfold emits emits
  rw [e]

/-- C88: for every number, the line is assembled, and a warning is given if and only if the number does not go into the field. -/
theorem warned_partial (l : Line) (x : Intnum) (hl : l.number = some x) (hx : Fits x) (name : List Char) (hn : name.map Char.toLower = l.name) :
    ∃ e bs w, assemble name l.operands 1 = .ok (e, [.bytes bs w]) ∧ (w = [] ↔ l.Taken) := by
  cases l <;> simp only [Line.number] at hl <;> cases hl
  · rename_i a d s
    have hd := d.isLt
    have hs := s.isLt
    cases a
    · exact reported_of name _ hn (addand, 0) ((0x1020 ||| (d.val % 8) <<< 9) ||| (s.val % 8) <<< 6) (by rw [regs2 d s 0x1020 (by decide)]; omega) .i5 5 true rfl (by decide) _ hx (by show (names.find? fun x => x.1 = "add".toList).map (·.2) = _; with_unfolding_all decide +kernel) rfl _ (by simp only [Line.Taken]; simp; try omega)
    · exact reported_of name _ hn (addand, 0x40) ((0x5020 ||| (d.val % 8) <<< 9) ||| (s.val % 8) <<< 6) (by rw [regs2 d s 0x5020 (by decide)]; omega) .i5 5 true rfl (by decide) _ hx (by show (names.find? fun x => x.1 = "and".toList).map (·.2) = _; with_unfolding_all decide +kernel) rfl _ (by simp only [Line.Taken]; simp; try omega)
  · rename_i d
    have hd := d.isLt
    obtain ⟨f, v⟩ := shr_one x hx
    exact reported_of name _ hn (jmpGroup, 0) (0xC000 ||| (d.val % 8) <<< 9) (by rw [regs1 d 0xC000 (by decide)]; omega) .w9 9 false rfl (by decide) _ f (by show (names.find? fun x => x.1 = "jmp".toList).map (·.2) = _; with_unfolding_all decide +kernel) rfl _ (by rw [v]; simp only [Line.Taken]; simp; omega)
  · rename_i k d s
    have hd := d.isLt
    have hs := s.isLt
    obtain ⟨f, v⟩ := shr_one x hx
    cases k
    · exact reported_of name _ hn (ldst, 0x20) ((0x2000 ||| (d.val % 8) <<< 9) ||| (s.val % 8) <<< 6) (by rw [regs2 d s 0x2000 (by decide)]; omega) .w6 6 false rfl (by decide) _ f (by show (names.find? fun x => x.1 = "ld".toList).map (·.2) = _; with_unfolding_all decide +kernel) rfl _ (by rw [v]; simp only [Line.Taken]; simp; omega)
    · exact reported_of name _ hn (ldst, 0xA0) ((0xA000 ||| (d.val % 8) <<< 9) ||| (s.val % 8) <<< 6) (by rw [regs2 d s 0xA000 (by decide)]; omega) .w6 6 false rfl (by decide) _ f (by show (names.find? fun x => x.1 = "ldi".toList).map (·.2) = _; with_unfolding_all decide +kernel) rfl _ (by rw [v]; simp only [Line.Taken]; simp; omega)
    · exact reported_of name _ hn (ldst, 0x30) ((0x3000 ||| (d.val % 8) <<< 9) ||| (s.val % 8) <<< 6) (by rw [regs2 d s 0x3000 (by decide)]; omega) .w6 6 false rfl (by decide) _ f (by show (names.find? fun x => x.1 = "st".toList).map (·.2) = _; with_unfolding_all decide +kernel) rfl _ (by rw [v]; simp only [Line.Taken]; simp; omega)
    · exact reported_of name _ hn (ldst, 0xB0) ((0xB000 ||| (d.val % 8) <<< 9) ||| (s.val % 8) <<< 6) (by rw [regs2 d s 0xB000 (by decide)]; omega) .w6 6 false rfl (by decide) _ f (by show (names.find? fun x => x.1 = "sti".toList).map (·.2) = _; with_unfolding_all decide +kernel) rfl _ (by rw [v]; simp only [Line.Taken]; simp; omega)
    · exact reported_of name _ hn (ldstb, 0x60) ((0x6000 ||| (d.val % 8) <<< 9) ||| (s.val % 8) <<< 6) (by rw [regs2 d s 0x6000 (by decide)]; omega) .b6 6 true rfl (by decide) _ hx (by show (names.find? fun x => x.1 = "ldb".toList).map (·.2) = _; with_unfolding_all decide +kernel) rfl _ (by simp only [Line.Taken]; simp; try omega)
    · exact reported_of name _ hn (ldstb, 0x70) ((0x7000 ||| (d.val % 8) <<< 9) ||| (s.val % 8) <<< 6) (by rw [regs2 d s 0x7000 (by decide)]; omega) .b6 6 true rfl (by decide) _ hx (by show (names.find? fun x => x.1 = "stb".toList).map (·.2) = _; with_unfolding_all decide +kernel) rfl _ (by simp only [Line.Taken]; simp; try omega)
  · rename_i k d s
    have hd := d.isLt
    have hs := s.isLt
    cases k
    · exact reported_of name _ hn (shiftGroup, 0) ((0xD000 ||| (d.val % 8) <<< 9) ||| (s.val % 8) <<< 6) (by rw [regs2 d s 0xD000 (by decide)]; omega) .i4 4 false rfl (by decide) _ hx (by show (names.find? fun x => x.1 = "lshf".toList).map (·.2) = _; with_unfolding_all decide +kernel) rfl _ (by simp only [Line.Taken]; simp; try omega)
    · exact reported_of name _ hn (shiftGroup, 0x10) ((0xD010 ||| (d.val % 8) <<< 9) ||| (s.val % 8) <<< 6) (by rw [regs2 d s 0xD010 (by decide)]; omega) .i4 4 false rfl (by decide) _ hx (by show (names.find? fun x => x.1 = "rshfl".toList).map (·.2) = _; with_unfolding_all decide +kernel) rfl _ (by simp only [Line.Taken]; simp; try omega)
    · exact reported_of name _ hn (shiftGroup, 0x30) ((0xD030 ||| (d.val % 8) <<< 9) ||| (s.val % 8) <<< 6) (by rw [regs2 d s 0xD030 (by decide)]; omega) .i4 4 false rfl (by decide) _ hx (by show (names.find? fun x => x.1 = "rshfa".toList).map (·.2) = _; with_unfolding_all decide +kernel) rfl _ (by simp only [Line.Taken]; simp; try omega)
  · obtain ⟨f, v⟩ := shr_one x hx
    exact reported_of name _ hn (trapGroup, 0) 0xF000 (by decide) .w8 8 false rfl (by decide) _ f (by show (names.find? fun x => x.1 = "trap".toList).map (·.2) = _; with_unfolding_all decide +kernel) rfl _ (by rw [v]; simp only [Line.Taken]; simp; omega)

/-- Its hypotheses are met: `LDB r1, r2, 32` is warned about, `ldb r1, r2, -32` is not. -/
example : (Line.mem .ldb 1 2 (.L 32#64)).number = some (.L 32#64) ∧ Fits (.L 32#64) ∧ "LDB".toList.map Char.toLower = (Line.mem .ldb 1 2 (.L 32#64)).name ∧
    ¬ (Line.mem .ldb 1 2 (.L 32#64)).Taken ∧ (Line.mem .ldb 1 2 (.L (-32#64))).Taken := by
  refine ⟨rfl, by unfold Fits; decide, by with_unfolding_all decide +kernel, ?_, ?_⟩ <;> unfold Line.Taken <;> decide

/-- The target of a jump. -/
def Line.target : Line → Option Target
  | .br _ _ _ t => some t
  | .jsr t => some t
  | .lea _ t => some t
  | _ => none

theorem target_value (t : Target) (hf : ∀ x, t = .num x → Fits x) (hr : -(2 ^ 31) ≤ t.disp ∧ t.disp < 2 ^ 31) :
    Jump (immediate .pc9 t.operand) ∧ total (immediate .pc9 t.operand) = t.disp / 2 ∧
      ∀ o, inSpan ⟨o, .pc9, immediate .pc9 t.operand⟩ = (decide (-510 ≤ t.disp / 2) && decide (t.disp / 2 ≤ 513)) := by
  cases t with
  | label d =>
    have hr : -(2 ^ 31) ≤ d ∧ d < 2 ^ 31 := hr
    refine ⟨⟨fun d' s h => ?_, fun a h => (by cases h), (by show -(2 ^ 40) ≤ (0 : Int) ∧ (0 : Int) ≤ 2 ^ 40; decide)⟩, ?_, fun o => ?_⟩
    · injection h with h
      injection h with h h'
      subst h
      subst h'
      exact ⟨rfl, by omega⟩
    · show (0 : Int) + d / 2 ^ 1 = d / 2
      omega
    · show (decide (-510 ≤ (0 : Int) + d / 2 ^ 1) && decide ((0 : Int) + d / 2 ^ 1 ≤ 513)) = (decide (-510 ≤ d / 2) && decide (d / 2 ≤ 513))
      rw [Int.zero_add, pow_one]
  | num x =>
    have hr : -(2 ^ 31) ≤ val x ∧ val x < 2 ^ 31 := hr
    obtain ⟨c, v⟩ := shr_canon x (hf x rfl)
    have hi := getInt_small _ c (by rw [v]; omega)
    refine ⟨⟨fun d' s h => (by cases h), fun a h => ?_, ?_⟩, ?_, fun o => ?_⟩
    · injection h with h
      rw [← h]
      exact c.fits
    · show -(2 ^ 40) ≤ val (calcI x .SHR (.L 1#64)) ∧ val (calcI x .SHR (.L 1#64)) ≤ 2 ^ 40
      rw [v]
      omega
    · show val (calcI x .SHR (.L 1#64)) + 0 = val x / 2
      rw [v]
      omega
    · show (decide (-510 ≤ (getInt (calcI x .SHR (.L 1#64))).toInt + 0) && decide ((getInt (calcI x .SHR (.L 1#64))).toInt + 0 ≤ 513)) = _
      rw [hi, v, Int.add_zero]
      rfl

theorem jump_form (l : Line) (t : Target) (hl : l.target = some t) : ∃ g o, (names.find? fun x => x.1 = l.name).map (·.2) = some g ∧ o < 65536 ∧
    finalize g.1 g.2 l.operands = some ⟨o, .pc9, immediate .pc9 t.operand⟩ := by
  cases l <;> simp only [Line.target] at hl <;> cases hl
  · rename_i n z p
    have key (mod : Nat) (hm : mod < 256) (hf : (names.find? fun x => x.1 = (Line.br n z p t).name).map (·.2) = some (brGroup, mod)) :
        ∃ g o, (names.find? fun x => x.1 = (Line.br n z p t).name).map (·.2) = some g ∧ o < 65536 ∧
          finalize g.1 g.2 (Line.br n z p t).operands = some ⟨o, .pc9, immediate .pc9 t.operand⟩ := by
      refine ⟨_, base ⟨true, false, 0, [imm .pc9]⟩ mod, hf, ?_, by cases t <;> rfl⟩
      show 0 + mod % 256 * 256 < 65536
      omega
    cases n <;> cases z <;> cases p
    · exact key 0 (by decide) (by show (names.find? fun x => x.1 = "br".toList).map (·.2) = _; with_unfolding_all decide +kernel)
    · exact key 2 (by decide) (by show (names.find? fun x => x.1 = "brp".toList).map (·.2) = _; with_unfolding_all decide +kernel)
    · exact key 4 (by decide) (by show (names.find? fun x => x.1 = "brz".toList).map (·.2) = _; with_unfolding_all decide +kernel)
    · exact key 6 (by decide) (by show (names.find? fun x => x.1 = "brzp".toList).map (·.2) = _; with_unfolding_all decide +kernel)
    · exact key 8 (by decide) (by show (names.find? fun x => x.1 = "brn".toList).map (·.2) = _; with_unfolding_all decide +kernel)
    · exact key 10 (by decide) (by show (names.find? fun x => x.1 = "brnp".toList).map (·.2) = _; with_unfolding_all decide +kernel)
    · exact key 12 (by decide) (by show (names.find? fun x => x.1 = "brnz".toList).map (·.2) = _; with_unfolding_all decide +kernel)
    · exact key 14 (by decide) (by show (names.find? fun x => x.1 = "brnzp".toList).map (·.2) = _; with_unfolding_all decide +kernel)
  · exact ⟨(brGroup, 0x40), 0x4000, by show (names.find? fun x => x.1 = "jsr".toList).map (·.2) = _; with_unfolding_all decide +kernel, by decide,
      by cases t <;> rfl⟩
  · rename_i d
    refine ⟨(leaGroup, 0), 0xE000 ||| (d.val % 8) <<< 9, by show (names.find? fun x => x.1 = "lea".toList).map (·.2) = _; with_unfolding_all decide +kernel, ?_,
      by cases t <;> rfl⟩
    rw [regs1 d 0xE000 (by decide)]
    omega

/-- C88: a jump whose target cannot be reached is never assembled in silence: beyond twice the reach there is an error, nearer there is a warning.
    What is missing is the error for the nearer ones. -/
theorem far_partial (l : Line) (t : Target) (hl : l.target = some t) (hf : ∀ x, t = .num x → Fits x)
    (hr : -(2 ^ 31) ≤ t.disp ∧ t.disp < 2 ^ 31) (name : List Char) (hn : name.map Char.toLower = l.name) :
    (-1020 ≤ t.disp ∧ t.disp < 1028 → ∃ e bs w, assemble name l.operands 1 = .ok (e, [.bytes bs w]) ∧ (w = [] ↔ -510 ≤ t.disp ∧ t.disp < 514)) ∧
      (¬(-1020 ≤ t.disp ∧ t.disp < 1028) → assemble name l.operands 1 = .error .outOfRange) := by
  obtain ⟨g, o, hg, ho, he⟩ := jump_form l t hl
  obtain ⟨j, ht, hs⟩ := target_value t hf hr
  refine ⟨fun hin => ?_, fun hout => ?_⟩
  · obtain ⟨v', a, b, w, e, _, hw, _⟩ := pc_emit o ho _ j
    refine ⟨⟨o, .pc9, v'⟩, [a, b], w, ?_, hw.trans (by rw [ht]; omega)⟩
    rw [ok_of name l hn 1 g _ hg he (by rw [hs, decide_eq_true (by omega), decide_eq_true (by omega)]; rfl)]
    unfold emits emits
    rw [e]
  · have hs := hs o
    have hfalse : (decide (-510 ≤ t.disp / 2) && decide (t.disp / 2 ≤ 513)) = false := by
      rcases (by omega : ¬ -510 ≤ t.disp / 2 ∨ ¬ t.disp / 2 ≤ 513) with h | h
      · rw [decide_eq_false h]; rfl
      · rw [decide_eq_false h, Bool.and_false]
    rw [hfalse] at hs
    unfold assemble lookup
    rw [hn, hg]
    obtain ⟨g, m⟩ := g
    have he : finalize g m l.operands = some ⟨o, .pc9, immediate .pc9 t.operand⟩ := he
    simp only [he, hs, Bool.false_eq_true, if_false]

/-- Its hypotheses are met. -/
example : (Line.lea 1 (.label 2000)).target = some (.label 2000) ∧ (Target.label 2000).disp < 2 ^ 31 ∧
    assemble "lea".toList (Line.lea 1 (.label 2000)).operands 1 = .error .outOfRange := by
  refine ⟨rfl, by decide, (far_partial (.lea 1 (.label 2000)) (.label 2000) rfl (fun x h => by cases h) (by decide) "lea".toList
    (by with_unfolding_all decide +kernel)).2 (by decide)⟩

/-! ### What is not so -/

/-- An odd offset is rounded down without a word. -/
theorem offset_can_be_dropped : (assemble "ld".toList [.reg 1, .reg 2, .num (.L 3#64)] 1).toOption.map (·.2) = some [.bytes [0x81#8, 0x22#8] []] ∧
    read [0x81#8, 0x22#8] = some (.mem .ld 1 2 2) := by
  with_unfolding_all decide +kernel

/-- An offset above the largest that the machine has is taken without a word and is negative. -/
theorem offset_can_change_sign : (assemble "ld".toList [.reg 1, .reg 2, .num (.L 64#64)] 1).toOption.map (·.2) = some [.bytes [0xA0#8, 0x22#8] []] ∧
    read [0xA0#8, 0x22#8] = some (.mem .ld 1 2 (-64)) ∧
    (assemble "jmp".toList [.reg 1, .num (.L 512#64)] 1).toOption.map (·.2) = some [.bytes [0x00#8, 0xC3#8] []] ∧
    read [0x00#8, 0xC3#8] = some (.jmp 1 (-512)) := by
  with_unfolding_all decide +kernel

/-- A negative count of a shift and a negative trap are taken without a word. -/
theorem count_can_be_negative : (assemble "lshf".toList [.reg 1, .reg 2, .num (.L (-1#64))] 1).toOption.map (·.2) = some [.bytes [0x8F#8, 0xD2#8] []] ∧
    read [0x8F#8, 0xD2#8] = some (.shift .left 1 2 15) ∧
    (assemble "trap".toList [.num (.L (-2#64))] 1).toOption.map (·.2) = some [.bytes [0xFF#8, 0xF0#8] []] ∧ read [0xFF#8, 0xF0#8] = some (.trap 510) := by
  with_unfolding_all decide +kernel

/-- A jump too far by less than twice is assembled, to somewhere else, with a warning where an error is meant. -/
theorem far_can_be_assembled : (assemble "brnzp".toList [.label 600] 1).toOption.map (·.2) = some [.bytes [0x2B#8, 0x0F#8] [.signedField]] ∧
    read [0x2B#8, 0x0F#8] = some (.br true true true (-424)) := by
  with_unfolding_all decide +kernel

/-- The bytes of a jump depend on how often they have been asked for; with a listing they are asked for twice. -/
theorem listing_can_differ : (emits 2 ⟨0x0E00, .pc9, ⟨none, some (20, 1)⟩⟩).2 = [.bytes [0x09#8, 0x0E#8] [], .bytes [0x08#8, 0x0E#8] []] := by
  with_unfolding_all decide +kernel

/-- `BR` without flags, which is to be always taken, never is. -/
theorem br_can_be_nothing : (assemble "br".toList [.label 20] 1).toOption.map (·.2) = some [.bytes [0x09#8, 0x00#8] []] ∧
    read [0x09#8, 0x00#8] = some (.br false false false 20) := by
  with_unfolding_all decide +kernel

end Verif.Lc3b
