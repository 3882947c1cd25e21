/-
The program for a list of locations.
-/
import Verif.Dwarf.Exec

namespace Verif.Dwarf

open Verif.Intnum

set_option linter.unusedSimpArgs false

/-- The registers: marks, and the rest. -/
def Marks.regs (k : Marks) (a : Int) (file line column : Long) : Row :=
  ⟨a, file.toNat, line.toNat, column.toNat, k.isa, k.disc, k.stmt, k.block, k.prologue, k.epilogue, false⟩

section
variable (out : Nat → Nat → List Byte)

theorem file_does (s : State) (l : Loc) (k : Marks) (a : Int) (line col : Long) (h : l.file.toNat < 2 ^ 32) :
    Does out (opFile s l) (k.regs a s.file line col) (k.regs a l.file line col) false := by
  unfold opFile
  by_cases c : s.file = l.file
  · rw [if_neg (by simpa using c), c]; exact does_nil out _
  · rw [if_pos (by simpa using c)]
    obtain ⟨hf, hv⟩ := fits_small _ h
    refine does_cons out _ _ _ _ _ _ ⟨by simp, hf, fun _ => by rw [hv]; omega, by rw [hv]; omega⟩ ?_ (does_nil out _)
    show (({ (k.regs a s.file line col) with file := val (createUint l.file) } : Row), false) = _
    rw [hv]; rfl

theorem column_does (s : State) (l : Loc) (k : Marks) (a : Int) (file line : Long) (h : l.column.toNat < 2 ^ 32) :
    Does out (opColumn s l) (k.regs a file line s.column) (k.regs a file line l.column) false := by
  unfold opColumn
  by_cases c : s.column = l.column
  · rw [if_neg (by simpa using c), c]; exact does_nil out _
  · rw [if_pos (by simpa using c)]
    obtain ⟨hf, hv⟩ := fits_small _ h
    refine does_cons out _ _ _ _ _ _ ⟨by simp, hf, fun _ => by rw [hv]; omega, by rw [hv]; omega⟩ ?_ (does_nil out _)
    show (({ (k.regs a file line s.column) with column := val (createUint l.column) } : Row), false) = _
    rw [hv]; rfl

theorem disc_does (l : Loc) (k : Marks) (a : Int) (file line col : Long) (h : l.disc.toNat < 2 ^ 32) :
    Does out (opDisc l) (k.regs a file line col)
      (({ k with disc := if l.disc = 0 then k.disc else l.disc.toNat } : Marks).regs a file line col) false := by
  unfold opDisc
  by_cases c : l.disc = 0
  · rw [if_neg (by simpa using c), if_pos c]; exact does_nil out _
  · rw [if_pos c, if_neg c]
    obtain ⟨hf, hv⟩ := fits_small _ h
    refine does_cons out _ _ _ _ _ _ ⟨rfl, hf, by rw [hv]; omega⟩ ?_ (does_nil out _)
    show (({ (k.regs a file line col) with disc := val (createUint l.disc) } : Row), false) = _
    rw [hv]; rfl

theorem isa_does (l : Loc) (k : Marks) (a : Int) (file line col : Long) (h : ∀ i, l.isa = some i → i.toNat < 2 ^ 32) :
    Does out (opIsa l) (k.regs a file line col)
      (({ k with isa := match l.isa with | some i => i.toNat | none => k.isa } : Marks).regs a file line col) false := by
  unfold opIsa
  cases c : l.isa with
  | none => exact does_nil out _
  | some i =>
    obtain ⟨hf, hv⟩ := fits_small _ (h i c)
    refine does_cons out _ _ _ _ _ _ ⟨by simp, hf, fun _ => by rw [hv]; omega, by rw [hv]; omega⟩ ?_ (does_nil out _)
    show (({ (k.regs a file line col) with isa := val (createUint i) } : Row), false) = _
    rw [hv]; rfl

theorem flip_does (s : State) (l : Loc) (k : Marks) (a : Int) (file line col : Long) (hk : k.stmt = s.stmt) :
    Does out (if flips s l then [.std 6 none] else []) (k.regs a file line col)
      (({ k with stmt := xor s.stmt (flips s l) } : Marks).regs a file line col) false := by
  cases c : flips s l
  · rw [Bool.xor_false, ← hk]; exact does_nil out _
  · refine does_cons out _ _ _ _ _ _ (by simp [OkOp]) ?_ (does_nil out _)
    show (({ (k.regs a file line col) with stmt := !k.stmt } : Row), false) = _
    rw [hk, Bool.xor_true]; rfl

theorem block_does (l : Loc) (k : Marks) (a : Int) (file line col : Long) :
    Does out (if l.block then [.std 7 none] else []) (k.regs a file line col)
      (({ k with block := k.block || l.block } : Marks).regs a file line col) false := by
  cases c : l.block
  · rw [Bool.or_false]; exact does_nil out _
  · refine does_cons out _ _ _ _ _ _ (by simp [OkOp]) ?_ (does_nil out _)
    rw [Bool.or_true]; rfl

theorem prologue_does (l : Loc) (k : Marks) (a : Int) (file line col : Long) :
    Does out (if l.prologue then [.std 10 none] else []) (k.regs a file line col)
      (({ k with prologue := k.prologue || l.prologue } : Marks).regs a file line col) false := by
  cases c : l.prologue
  · rw [Bool.or_false]; exact does_nil out _
  · refine does_cons out _ _ _ _ _ _ (by simp [OkOp]) ?_ (does_nil out _)
    rw [Bool.or_true]; rfl

theorem epilogue_does (l : Loc) (k : Marks) (a : Int) (file line col : Long) :
    Does out (if l.epilogue then [.std 11 none] else []) (k.regs a file line col)
      (({ k with epilogue := k.epilogue || l.epilogue } : Marks).regs a file line col) false := by
  cases c : l.epilogue
  · rw [Bool.or_false]; exact does_nil out _
  · refine does_cons out _ _ _ _ _ _ (by simp [OkOp]) ?_ (does_nil out _)
    rw [Bool.or_true]; rfl

theorem flips_note (s : State) (l : Loc) (k : Marks) (hk : k.stmt = s.stmt) : xor s.stmt (flips s l) = (k.note l).stmt := by
  simp only [flips, Marks.note]
  rw [hk]
  cases l.stmt <;> cases s.stmt <;> rfl

theorem registers_does (s : State) (l : Loc) (k : Marks) (a : Int) (hk : k.stmt = s.stmt) (hl : l.Small) :
    Does out (registers s l).1 (k.regs a s.file s.line s.column) ((k.note l).regs a l.file s.line l.column) false := by
  obtain ⟨h1, h2, h3, h4, h5⟩ := hl
  unfold registers
  simp only
  have e := does_append out _ _ _ _ _ _ (does_append out _ _ _ _ _ _ (does_append out _ _ _ _ _ _ (does_append out _ _ _ _ _ _
    (does_append out _ _ _ _ _ _ (does_append out _ _ _ _ _ _ (does_append out _ _ _ _ _ _
    (file_does out s l k a s.line s.column h1) (column_does out s l k a l.file s.line h3))
    (disc_does out l k a l.file s.line l.column h4)) (isa_does out l _ a l.file s.line l.column h5))
    (flip_does out s l _ a l.file s.line l.column hk)) (block_does out l _ a l.file s.line l.column))
    (prologue_does out l _ a l.file s.line l.column)) (epilogue_does out l _ a l.file s.line l.column)
  have := flips_note s l k hk
  simp only [this] at e
  exact e

theorem note_stmt (s : State) (l : Loc) (k : Marks) (hk : k.stmt = s.stmt) : (k.note l).stmt = (registers s l).2.stmt :=
  (flips_note s l k hk).symm

/-- The registers of generator and reader agree. -/
structure Inv (start : Int) (s : State) (k : Marks) (a : Int) : Prop where
  stmt : k.stmt = s.stmt
  line : s.line.toNat < 2 ^ 32
  at_ : ∀ p, s.prec = some p → a = start + p.toNat ∧ p.toNat < 2 ^ 32

theorem address_does (start : Int) (size : Nat) (s : State) (l : Loc) (k : Marks) (a : Int) (b : Long)
    (hi : ∀ p, s.prec = some p → a = start + p.toNat ∧ p.toNat < 2 ^ 32) (hsz : size < 2 ^ 31)
    (hb : l.bc = some b) (hb' : b.toNat < 2 ^ 32)
    (hp : ∀ p, s.prec = some p → p.toNat ≤ b.toNat)
    (hn : s.prec = none → ∃ y, l.sym = some y ∧ (leVal (out y size) : Int) = start + b.toNat) :
    ∃ ops d, address size s l = .ok (some (ops, d)) ∧ d.toNat < 2 ^ 32 ∧
      ∃ a', Does out ops (k.regs a l.file s.line l.column) (k.regs a' l.file s.line l.column) false ∧ a' + d.toNat = start + b.toNat := by
  unfold address
  cases c : s.prec with
  | none =>
    obtain ⟨y, hy, hv⟩ := hn c
    rw [hy]
    refine ⟨_, _, rfl, by decide, (leVal (out y size) : Int), ?_, ?_⟩
    · exact does_cons out _ _ _ _ _ _ ⟨rfl, hsz⟩ rfl (does_nil out _)
    · rw [hv]
      have : (0 : Long).toNat = 0 := rfl
      omega
  | some p =>
    have hpb := hp p c
    obtain ⟨ha, hpl⟩ := hi p c
    simp only [hb]
    rw [if_neg (by omega)]
    have hs : (b - p).toNat = b.toNat - p.toNat := by
      rw [BitVec.toNat_sub]; omega
    refine ⟨_, _, rfl, by omega, a, does_nil out _, ?_⟩
    rw [hs, ha]; omega

theorem ld_small (x y : Long) (hx : x.toNat < 2 ^ 32) (hy : y.toNat < 2 ^ 32) : (x - y).toInt = (x.toNat : Int) - y.toNat := by
  rw [BitVec.toInt_eq_toNat_cond, BitVec.toNat_sub]
  split <;> omega

/-- One location that gets a row. -/
theorem gen_does (start : Int) (size : Nat) (s : State) (l : Loc) (next : Option Loc) (k : Marks) (a : Int) (b : Long)
    (hi : Inv start s k a) (hsz : size < 2 ^ 31) (hl : l.Small)
    (hb : l.bc = some b) (hb' : b.toNat < 2 ^ 32) (hs : superseded l next = .ok false)
    (hp : ∀ p, s.prec = some p → p.toNat ≤ b.toNat)
    (hn : s.prec = none → ∃ y, l.sym = some y ∧ (leVal (out y size) : Int) = start + b.toNat) :
    ∃ ops s', genLineOp 1 size s l next = .ok (ops, s') ∧ s'.prec = some b ∧
      s'.file = l.file ∧ s'.line = l.line ∧ s'.column = l.column ∧
      Inv start s' (k.note l).after (start + b.toNat) ∧
      Does out ops (k.regs a s.file s.line s.column) ((k.note l).row l (start + l.offset)) true := by
  obtain ⟨h1, h2, h3, h4, h5⟩ := hl
  have hr := registers_does out s l k a hi.stmt ⟨h1, h2, h3, h4, h5⟩
  have hst := note_stmt s l k hi.stmt
  have hprec : (registers s l).2.prec = s.prec := rfl
  have hline : (registers s l).2.line = s.line := rfl
  obtain ⟨ops, d, ea, hd, a', hd2, hsum⟩ := address_does out start size (registers s l).2 l (k.note l) a b
    (by rw [hprec]; exact hi.at_) hsz hb hb' (by rw [hprec]; exact hp) (by rw [hprec]; exact hn)
  rw [hline] at hd2
  have hw := row_does out ((k.note l).regs a' l.file s.line l.column) (l.line - s.line) d
    (by rw [ld_small _ _ h2 hi.line]; have := hi.line; omega) (by rw [ld_small _ _ h2 hi.line]; omega) hd
  refine ⟨_, _, by simp only [genLineOp, hs, ea]; rfl, hb, rfl, rfl, rfl, ⟨?_, h2, ?_⟩, ?_⟩
  · exact hst
  · intro p h
    have : some p = some b := by rw [← h, ← hb]
    cases this
    exact ⟨rfl, hb'⟩
  · rw [hline]
    have := does_append out _ _ _ _ _ _ (does_append out _ _ _ _ _ _ hr hd2) hw
    have e : ((k.note l).regs a' l.file s.line l.column).move d.toNat (l.line - s.line).toInt =
        (k.note l).row l (start + l.offset) := by
      rw [ld_small _ _ h2 hi.line]
      have e1 : a' + (d.toNat : Int) = start + l.offset := by
        rw [hsum, Loc.offset, hb]; rfl
      have e2 : (s.line.toNat : Int) + ((l.line.toNat : Int) - (s.line.toNat : Int)) = l.line.toNat := by omega
      simp only [Row.move, Marks.regs, Marks.row]
      rw [e1, e2]
    rw [e] at this
    exact this

theorem after_regs (k : Marks) (l : Loc) (a : Int) (b : Long) (h : l.bc = some b) :
    ((k.row l (a + l.offset)).next (header 1)) = k.after.regs (a + b.toNat) l.file l.line l.column := by
  have : l.offset = (b.toNat : Int) := by rw [Loc.offset, h]; rfl
  rw [this]
  rfl

theorem superseded_again (l : Loc) (ls : List Loc) (hb : ∃ b, l.bc = some b) (hn : ∀ n ∈ ls, ∃ b, n.bc = some b) :
    superseded l ls.head? = .ok (again l ls) := by
  cases ls with
  | nil => rfl
  | cons n ls =>
    obtain ⟨b, hb⟩ := hb
    obtain ⟨c, hc⟩ := hn n (List.mem_cons_self ..)
    simp only [List.head?_cons, superseded, hb, hc, again, Option.some.injEq]

/-- All locations. -/
theorem genLocs_does (start : Int) (size : Nat) (hsz : size < 2 ^ 31) (ls : List Loc) :
    ∀ (s : State) (k : Marks) (a : Int), Inv start s k a → (∀ l ∈ ls, l.Small) →
    (∀ l ∈ ls, ∃ b, l.bc = some b ∧ b.toNat < 2 ^ 32) → ls.Pairwise (fun x y => x.offset ≤ y.offset) →
    (∀ p, s.prec = some p → ∀ l ∈ ls, (p.toNat : Int) ≤ l.offset) →
    (s.prec = none → ∀ l, leading ls = some l → ∃ y, l.sym = some y ∧ (leVal (out y size) : Int) = start + l.offset) →
    ∃ ops s' k' a', genLocs 1 size s ls = .ok (ops, s') ∧ (∀ o ∈ ops, OkOp o) ∧ Inv start s' k' a' ∧
      (ls ≠ [] → ∃ l ∈ ls, s'.prec = l.bc) ∧
      ∀ os, execAll (header 1) (k.regs a s.file s.line s.column) (ops.map (den out) ++ os) =
        expected start k ls ++ execAll (header 1) (k'.regs a' s'.file s'.line s'.column) os := by
  induction ls with
  | nil =>
    intro s k a hi _ _ _ _ _
    exact ⟨[], s, k, a, rfl, by intro o h; simp at h, hi, fun h => absurd rfl h, fun os => rfl⟩
  | cons l ls ih =>
    intro s k a hi hsm hbc hsort hprec hlead
    obtain ⟨b, hb, hb'⟩ := hbc l (List.mem_cons_self ..)
    have hoff : l.offset = (b.toNat : Int) := by rw [Loc.offset, hb]; rfl
    have hsup := superseded_again l ls ⟨b, hb⟩ (fun n hn => (hbc n (List.mem_cons_of_mem _ hn)).imp fun _ h => h.1)
    have hsort' := (List.pairwise_cons.1 hsort)
    cases hag : again l ls with
    | true =>
      rw [hag] at hsup
      have hr := registers_does out s l k a hi.stmt (hsm l (List.mem_cons_self ..))
      have hi' : Inv start (registers s l).2 (k.note l) a := ⟨note_stmt s l k hi.stmt, hi.line, hi.at_⟩
      obtain ⟨ops, s', k', a', h1, h2, h3, h4, h5⟩ := ih (registers s l).2 (k.note l) a hi'
        (fun n hn => hsm n (List.mem_cons_of_mem _ hn)) (fun n hn => hbc n (List.mem_cons_of_mem _ hn)) hsort'.2
        (fun p hp n hn => hprec p hp n (List.mem_cons_of_mem _ hn))
        (fun hn n hln => hlead hn n (by rw [leading, if_pos hag]; exact hln))
      have hne : ls ≠ [] := by rintro rfl; cases hag
      refine ⟨(registers s l).1 ++ ops, s', k', a', ?_, ?_, h3, ?_, ?_⟩
      · simp only [genLocs, genLineOp, hsup, h1]
      · intro o ho
        rcases List.mem_append.1 ho with h | h
        · exact hr.ok o h
        · exact h2 o h
      · intro _
        obtain ⟨n, hn, hp⟩ := h4 hne
        exact ⟨n, List.mem_cons_of_mem _ hn, hp⟩
      · intro os
        rw [List.map_append, List.append_assoc, hr.run, expected, if_pos hag]
        exact h5 os
    | false =>
      rw [hag] at hsup
      obtain ⟨gops, gs, g1, g2, g3, g4, g5, g6, g7⟩ := gen_does out start size s l ls.head? k a b hi hsz
        (hsm l (List.mem_cons_self ..)) hb hb' hsup
        (fun p hp => by have := hprec p hp l (List.mem_cons_self ..); omega)
        (fun hn => by
          obtain ⟨y, hy, hv⟩ := hlead hn l (by rw [leading, if_neg (by rw [hag]; decide)])
          exact ⟨y, hy, by rw [hv, hoff]⟩)
      obtain ⟨ops, s', k', a', h1, h2, h3, h4, h5⟩ := ih gs (k.note l).after (start + b.toNat) g6
        (fun n hn => hsm n (List.mem_cons_of_mem _ hn)) (fun n hn => hbc n (List.mem_cons_of_mem _ hn)) hsort'.2
        (fun p hp n hn => by
          have : some p = some b := by rw [← hp, g2]
          cases this
          have := hsort'.1 n hn
          omega)
        (fun hn => by rw [g2] at hn; cases hn)
      refine ⟨gops ++ ops, s', k', a', ?_, ?_, h3, ?_, ?_⟩
      · simp only [genLocs, g1, h1]
      · intro o ho
        rcases List.mem_append.1 ho with h | h
        · exact g7.ok o h
        · exact h2 o h
      · intro _
        by_cases hne : ls = []
        · subst hne
          simp only [genLocs, Except.ok.injEq, Prod.mk.injEq] at h1
          exact ⟨l, List.mem_cons_self .., by rw [← h1.2, g2, hb]⟩
        · obtain ⟨n, hn, hp⟩ := h4 hne
          exact ⟨n, List.mem_cons_of_mem _ hn, hp⟩
      · intro os
        rw [List.map_append, List.append_assoc, g7.run, if_pos rfl, expected, hag, if_neg Bool.false_ne_true,
          after_regs (k.note l) l start b hb, List.cons_append]
        rw [← g3, ← g4, ← g5]
        rw [h5]

/-- The end of the sequence. -/
theorem end_does (start : Int) (s : State) (k : Marks) (a : Int) (first last p : Long) (hi : Inv start s k a) (hp : s.prec = some p)
    (hle : p.toNat ≤ last.toNat) (hlast : last.toNat < 2 ^ 32) :
    Does out (endOps 1 s first last) (k.regs a s.file s.line s.column)
      { (k.regs (start + last.toNat) s.file s.line s.column) with ended := true } true := by
  obtain ⟨ha, hpl⟩ := hi.at_ p hp
  have hs : (last - p).toNat = last.toNat - p.toNat := by rw [BitVec.toNat_sub]; omega
  unfold endOps
  rw [hp, Option.getD_some]
  have hm : (maxAddr 1).toNat = 17 := rfl
  simp only
  apply does_append out _ _ _ (k.regs (start + last.toNat) s.file s.line s.column)
  · by_cases c1 : last - p = maxAddr 1
    · rw [if_pos c1]
      refine does_cons out _ _ _ _ _ _ (by simp [OkOp]) (exec_const _) ?_
      have e : (k.regs a s.file s.line s.column).move 17 0 = k.regs (start + last.toNat) s.file s.line s.column := by
        have : a + 17 = start + last.toNat := by
          rw [c1, hm] at hs; omega
        simp only [Row.move, Marks.regs, this, Int.add_zero]
      rw [e]; exact does_nil out _
    · rw [if_neg c1]
      by_cases c2 : last - p = 0
      · rw [if_neg (by simpa using c2)]
        have : a = start + last.toNat := by
          have z : (0 : Long).toNat = 0 := rfl
          rw [c2, z] at hs; omega
        rw [this]; exact does_nil out _
      · rw [if_pos c2]
        obtain ⟨hf, hv⟩ := fits_small (last - p) (by omega)
        refine does_cons out _ _ _ _ _ _ ⟨Or.inl rfl, hf, fun _ => by rw [hv]; omega, by rw [hv]; omega⟩ ?_ (does_nil out _)
        have : exec (header 1) (k.regs a s.file s.line s.column) (den out (.std 2 (some (createUint (last - p))))) =
          ({ (k.regs a s.file s.line s.column) with address := a + ((1 : Nat) : Int) * val (createUint (last - p)) }, false) := rfl
        rw [this, hv]
        have e : a + ((1 : Nat) : Int) * ((last - p).toNat : Int) = start + last.toNat := by omega
        rw [e]; rfl
  · exact does_row out _ _ _ rfl rfl

end

end Verif.Dwarf
