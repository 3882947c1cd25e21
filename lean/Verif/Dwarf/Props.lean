/-
C57: the line number program says, for every place in the code, the line it came from.
-/
import Verif.Dwarf.Locate

namespace Verif.Dwarf

open Verif.Intnum

set_option linter.unusedSimpArgs false

theorem laid_bounds : ∀ (bcs : List Bc), Laid bcs →
    bcs.Pairwise (fun x y => x.offset.toNat ≤ y.offset.toNat) ∧ (∀ b ∈ bcs, b.offset.toNat ≤ sectionEnd bcs) ∧
    sectionEnd bcs < 2 ^ 32
  | [], _ => ⟨List.Pairwise.nil, by intro b h; simp at h, by decide⟩
  | [b], h => ⟨List.pairwise_singleton _ _, by intro c hc; rw [List.mem_singleton.1 hc]; exact h.1, h.2⟩
  | b :: c :: bs, h => by
    obtain ⟨h1, h2, h3⟩ := h
    obtain ⟨i1, i2, i3⟩ := laid_bounds (c :: bs) h3
    have he : sectionEnd (b :: c :: bs) = sectionEnd (c :: bs) := by
      simp only [sectionEnd, List.getLast?_cons_cons]
    have hbc : b.offset.toNat ≤ c.offset.toNat := by rw [← h2]; exact h1
    refine ⟨List.pairwise_cons.2 ⟨?_, i1⟩, ?_, by rw [he]; exact i3⟩
    · intro x hx
      rcases List.mem_cons.1 hx with rfl | hx
      · exact hbc
      · have := (List.pairwise_cons.1 i1).1 x hx
        omega
    · intro x hx
      rw [he]
      rcases List.mem_cons.1 hx with rfl | hx
      · have := i2 c (List.mem_cons_self ..)
        omega
      · exact i2 x hx

theorem located (bcs : List Bc) (l : Loc) (h : ∃ b ∈ bcs, l.vline.toNat < b.line.toNat) :
    ∃ b rest, bcs.dropWhile (fun b => decide (b.line.toNat ≤ l.vline.toNat)) = b :: rest ∧ b ∈ bcs ∧ (locate bcs l).bc = some b.offset := by
  cases hd : bcs.dropWhile (fun b => decide (b.line.toNat ≤ l.vline.toNat)) with
  | nil =>
    obtain ⟨b, hb, hl⟩ := h
    have ht : bcs.takeWhile (fun b => decide (b.line.toNat ≤ l.vline.toNat)) = bcs := by
      have := List.takeWhile_append_dropWhile (p := fun b => decide (b.line.toNat ≤ l.vline.toNat)) (l := bcs)
      rw [hd, List.append_nil] at this
      exact this
    have := List.all_eq_true.1 (List.all_takeWhile (p := fun b => decide (b.line.toNat ≤ l.vline.toNat)) (l := bcs)) b (by rw [ht]; exact hb)
    have := of_decide_eq_true this
    omega
  | cons b rest =>
    refine ⟨b, rest, rfl, ?_, ?_⟩
    · apply (List.dropWhile_suffix (l := bcs) fun b => decide (b.line.toNat ≤ l.vline.toNat)).subset
      rw [hd]; exact List.mem_cons_self ..
    · simp only [locate, hd]; rfl

theorem dropWhile_twice (v w : Nat) (h : v ≤ w) (bcs : List Bc) :
    (bcs.dropWhile fun b => decide (b.line.toNat ≤ v)).dropWhile (fun b => decide (b.line.toNat ≤ w)) =
      bcs.dropWhile fun b => decide (b.line.toNat ≤ w) := by
  induction bcs with
  | nil => rfl
  | cons b bs ih =>
    by_cases hb : b.line.toNat ≤ v
    · have hw : b.line.toNat ≤ w := by omega
      rw [List.dropWhile_cons_of_pos (by simpa using hb), List.dropWhile_cons_of_pos (by simpa using hw)]
      exact ih
    · rw [List.dropWhile_cons_of_neg (by simpa using hb)]

theorem locate_mono (bcs : List Bc) (hp : bcs.Pairwise (fun x y => x.offset.toNat ≤ y.offset.toNat)) (x y : Loc)
    (hxy : x.vline.toNat ≤ y.vline.toNat) (hx : ∃ b ∈ bcs, x.vline.toNat < b.line.toNat)
    (hy : ∃ b ∈ bcs, y.vline.toNat < b.line.toNat) : (locate bcs x).offset ≤ (locate bcs y).offset := by
  obtain ⟨b, rb, hb, _, hb'⟩ := located bcs x hx
  obtain ⟨c, rc, hc, _, hc'⟩ := located bcs y hy
  have e := dropWhile_twice _ _ hxy bcs
  rw [hb] at e
  have hs : c ∈ b :: rb := by
    apply (List.dropWhile_suffix (l := b :: rb) fun b => decide (b.line.toNat ≤ y.vline.toNat)).subset
    rw [e, hc]; exact List.mem_cons_self ..
  have hp' : (b :: rb).Pairwise (fun x y => x.offset.toNat ≤ y.offset.toNat) := by
    rw [← hb]
    exact hp.sublist (List.dropWhile_suffix _).sublist
  have : b.offset.toNat ≤ c.offset.toNat := by
    rcases List.mem_cons.1 hs with h | h
    · rw [h]
    · exact (List.pairwise_cons.1 hp').1 c h
  simp only [Loc.offset, hb', hc', Option.getD_some]
  omega

/-- C57: each location is for the first code beyond it; its label is the last one before. -/
theorem loc_code (bcs : List Bc) (locs : List Loc) (h : locs.Pairwise fun x y => x.vline.toNat ≤ y.vline.toNat) :
    finalizeLocs locs bcs none = locs.map (locate bcs) := by
  have := finalize_eq locs [] bcs (by intro _ _ _ h; simp at h) h
  exact this

/-- C57 (partial: if the label the address is taken from lies where the first location does; if there is code after
    every location; for numbers below 2^32): the bytes written for the locations of a section are as many as were
    counted, and a debugger reads from them one row for each place with locations, with the address, file, line,
    column and marks of the last of them there; then the end, at the end of the section. -/
theorem line_table_partial (out : Nat → Nat → List Byte) (hout : ∀ s n, (out s n).length = n) (start : Int) (size : Nat)
    (hsz : size < 2 ^ 31) (bcs : List Bc) (locs : List Loc) (hne : locs ≠ [])
    (hlaid : Laid bcs) (hsm : ∀ l ∈ locs, l.Small)
    (horder : locs.Pairwise fun x y => x.vline.toNat ≤ y.vline.toNat)
    (hcode : ∀ l ∈ locs, ∃ b ∈ bcs, l.vline.toNat < b.line.toNat)
    (hlabel : ∀ l, leading (locs.map (locate bcs)) = some l → ∃ y, l.sym = some y ∧ (leVal (out y size) : Int) = start + l.offset) :
    ∃ ops bs e, lineSection 1 size bcs locs = .ok ops ∧ bytes out ops = some bs ∧
      bs.length = (ops.map fun o => (opLen o).toNat).sum ∧
      table (header 1) bs = some (expected start Marks.start (locs.map (locate bcs)) ++ [e]) ∧
      e.ended = true ∧ e.address = start + sectionEnd bcs := by
  obtain ⟨p1, p2, p3⟩ := laid_bounds bcs hlaid
  have hbc : ∀ l ∈ locs.map (locate bcs), ∃ b, l.bc = some b ∧ b.toNat < 2 ^ 32 ∧ b.toNat ≤ sectionEnd bcs := by
    intro l hl
    obtain ⟨l', hl', rfl⟩ := List.mem_map.1 hl
    obtain ⟨b, r, _, hm, hb⟩ := located bcs l' (hcode l' hl')
    exact ⟨b.offset, hb, by have := p2 b hm; omega, p2 b hm⟩
  obtain ⟨ops, s', k', a', h1, h2, h3, h4, h5⟩ := genLocs_does out start size hsz (locs.map (locate bcs)) State.start Marks.start 0
    ⟨rfl, by decide, by intro p h; cases h⟩
    (by
      intro l hl
      obtain ⟨l', hl', rfl⟩ := List.mem_map.1 hl
      exact hsm l' hl')
    (fun l hl => (hbc l hl).imp fun _ h => ⟨h.1, h.2.1⟩)
    (by
      rw [List.pairwise_map]
      refine List.Pairwise.imp_of_mem ?_ horder
      intro x y hx hy hxy
      exact locate_mono bcs p1 x y hxy (hcode x hx) (hcode y hy))
    (by intro p h; cases h) (fun _ => hlabel)
  obtain ⟨l, hl, hp⟩ := h4 (by simpa using hne)
  obtain ⟨b, hb, _, hle⟩ := hbc l hl
  rw [hb] at hp
  have hlast : sectionEnd bcs = ((bcs.getLast?.map Bc.next).getD 0).toNat := rfl
  have he := end_does out start s' k' a' ((bcs.head?.map Bc.offset).getD 0) ((bcs.getLast?.map Bc.next).getD 0) b h3 hp
    (by rw [← hlast]; exact hle) (by rw [← hlast]; exact p3)
  have hok : ∀ o ∈ ops ++ endOps 1 s' ((bcs.head?.map Bc.offset).getD 0) ((bcs.getLast?.map Bc.next).getD 0), OkOp o := by
    intro o ho
    rcases List.mem_append.1 ho with h | h
    · exact h2 o h
    · exact he.ok o h
  obtain ⟨bs, hb1, hb2, hb3⟩ := read_ops 1 out hout _ hok
  refine ⟨_, bs, { (k'.regs (start + sectionEnd bcs) s'.file s'.line s'.column) with ended := true }, by simp only [lineSection, loc_code bcs locs horder, h1], hb1, hb2, ?_, rfl, rfl⟩
  · rw [table, hb3 _ (Nat.le_refl _), Option.map_some, List.map_append]
    have hst : Row.start (header 1) = Marks.start.regs 0 State.start.file State.start.line State.start.column := rfl
    rw [hst, h5]
    have := he.run []
    rw [List.append_nil] at this
    rw [this]
    rfl

/-- C57 (partial likewise): for the assembly source itself, there is a row for each bytecode that takes up room, with
    the file and line it came from. -/
theorem source_table_partial (out : Nat → Nat → List Byte) (hout : ∀ s n, (out s n).length = n) (start : Int) (size : Nat)
    (hsz : size < 2 ^ 31) (where_ : Long → Long × Long) (b : Bc) (bs : List Bc) (hne : bs ≠ [])
    (hlaid : Laid (b :: bs)) (hsm : ∀ b ∈ bs, (where_ b.line).1.toNat < 2 ^ 32 ∧ (where_ b.line).2.toNat < 2 ^ 32)
    (hlabel : ∀ c y, firstCode b.syms.getLast? bs = some (c, y) →
      ∃ z, y = some z ∧ (leVal (out z size) : Int) = start + c.offset.toNat) :
    ∃ ops bytes' e, lineSource 1 size where_ (b :: bs) = .ok ops ∧ bytes out ops = some bytes' ∧
      bytes'.length = (ops.map fun o => (opLen o).toNat).sum ∧
      table (header 1) bytes' = some (expectedSource start where_ bs ++ [e]) ∧
      e.ended = true ∧ e.address = start + sectionEnd (b :: bs) := by
  obtain ⟨p1, p2, p3⟩ := laid_bounds (b :: bs) hlaid
  obtain ⟨ops, s', a', h1, h2, h3, h4, h6, h5⟩ := genBcs_does out start size hsz where_ bs State.start b.syms.getLast? 0
    ⟨rfl, by decide, by intro p h; cases h⟩
    (fun c hc => ⟨by have := p2 c (List.mem_cons_of_mem _ hc); omega, hsm c hc⟩)
    rfl (List.pairwise_cons.1 p1).2 (by intro p h; cases h) (fun _ => hlabel)
  obtain ⟨p, hp⟩ := Option.ne_none_iff_exists'.1 (h6 hne)
  have hle : p.toNat ≤ sectionEnd (b :: bs) := by
    rcases h4 p hp with h | ⟨c, hc, rfl⟩
    · cases h
    · exact p2 c (List.mem_cons_of_mem _ hc)
  have he := end_does out start s' Marks.start a' b.offset (((b :: bs).getLast?.map Bc.next).getD 0) p h3 hp hle p3
  have hok : ∀ o ∈ ops ++ endOps 1 s' b.offset (((b :: bs).getLast?.map Bc.next).getD 0), OkOp o := by
    intro o ho
    rcases List.mem_append.1 ho with h | h
    · exact h2 o h
    · exact he.ok o h
  obtain ⟨bts, hb1, hb2, hb3⟩ := read_ops 1 out hout _ hok
  refine ⟨_, bts, { (Marks.start.regs (start + sectionEnd (b :: bs)) s'.file s'.line s'.column) with ended := true }, by simp only [lineSource, h1], hb1, hb2, ?_, rfl, rfl⟩
  · rw [table, hb3 _ (Nat.le_refl _), Option.map_some, List.map_append]
    have hst : Row.start (header 1) = Marks.start.regs 0 State.start.file State.start.line State.start.column := rfl
    rw [hst, h5]
    have := he.run []
    rw [List.append_nil] at this
    rw [this]
    rfl

/-! ### Options -/

/-- The parameters of a list of options are read one option at a time. -/
theorem option_step (f : LocOpt → List Param) (hf : f = LocOpt.nasm ∨ f = LocOpt.gas) (o : LocOpt) (ho : o.plain = true) (l : Loc)
    (ps : List Param) : locOptions .no l (f o ++ ps) = locOptions .no (o.apply l) ps := by
  have hn : ∀ n : Nat, ¬ (n : Int) < 0 := fun n => by omega
  have ho' : ∀ n : Nat, BitVec.ofInt 64 (n : Int) = BitVec.ofNat 64 n := fun n => BitVec.ofInt_natCast 64 n
  rcases hf with rfl | rfl <;> cases o <;>
    first
    | (simp [LocOpt.plain] at ho; done)
    | simp [LocOpt.nasm, LocOpt.gas, locOptions, locOption, Key.wait, optName, optValue, Except.map, LocOpt.apply, hn, ho']

/-- C57 (partial: not the statement flag): in either syntax, the options set what they say. -/
theorem options_partial (f : LocOpt → List Param) (hf : f = LocOpt.nasm ∨ f = LocOpt.gas) (os : List LocOpt)
    (h : ∀ o ∈ os, o.plain = true) (l : Loc) :
    locOptions .no l (os.flatMap f) = .ok (os.foldl LocOpt.apply l) := by
  induction os generalizing l with
  | nil => rfl
  | cons o os ih =>
    rw [List.flatMap_cons, option_step f hf o (h o (List.mem_cons_self ..)), ih fun o ho => h o (List.mem_cons_of_mem _ ho)]
    rfl

/-- C57 fails: `is_stmt=1` clears the statement flag and `is_stmt=0` sets it, in either syntax. -/
theorem is_stmt_inverted (f : LocOpt → List Param) (hf : f = LocOpt.nasm ∨ f = LocOpt.gas) (b : Bool) (l : Loc) :
    locOptions .no l (f (.isStmt b)) = .ok { l with stmt := if b then .clear else .set } := by
  rcases hf with rfl | rfl <;> cases b <;> rfl

/-! ### Cases that meet the hypotheses, and cases that go wrong -/

/-- Eight bytes, least significant first. -/
def addr8 (address : Nat → Nat) (s n : Nat) : List Byte := (List.range n).map fun i => BitVec.ofNat 8 (address s / 256 ^ i)

theorem addr8_length (address : Nat → Nat) (s n : Nat) : (addr8 address s n).length = n := by
  rw [addr8, List.length_map, List.length_range]

/-- `foo:` and then code for lines 10, 30 and 12 of a file, the second place with two locations. -/
def demoBcs : List Bc := [⟨0, 0, 0, [0]⟩, ⟨3, 0, 5, []⟩, ⟨6, 5, 305, []⟩, ⟨8, 305, 306, [1]⟩]
/-- A location. -/
def loc (vline file line : Long) : Loc := ⟨vline, file, line, 0, 0, none, .nochange, false, false, false, none, none⟩
/-- The locations. -/
def demoLocs : List Loc :=
  [loc 2 1 10, { (loc 4 1 20) with block := true }, { (loc 5 2 30) with column := 7, stmt := .clear, isa := some 3 }, { (loc 7 1 12) with disc := 9 }]

example : Laid demoBcs ∧ demoLocs.Pairwise (fun x y => x.vline.toNat ≤ y.vline.toNat) ∧
    (∀ l ∈ demoLocs, ∃ b ∈ demoBcs, l.vline.toNat < b.line.toNat) := by
  simp only [Laid, demoBcs]; decide
example : ∀ l ∈ demoLocs, l.Small := by
  unfold Loc.Small; simp [demoLocs, loc]
example : (leading (demoLocs.map (locate demoBcs))).map (fun l => (l.sym, l.offset)) = some (some 0, 0) := by decide

/-- The table of the bytes of a program. -/
def programTable (min : Nat) (address : Nat → Nat) (p : Except Stop (List LineOp)) : Option (List Row) :=
  match p with
  | .error _ => none
  | .ok ops => (bytes (addr8 address) ops).bind (table (header min))

example : programTable 1 (fun _ => 1000) (lineSection 1 8 demoBcs demoLocs) = some
    [⟨1000, 1, 10, 0, 0, 0, true, false, false, false, false⟩, ⟨1005, 2, 30, 7, 3, 0, false, true, false, false, false⟩,
     ⟨1305, 1, 12, 0, 3, 9, false, false, false, false, false⟩, ⟨1306, 1, 12, 0, 3, 0, false, false, false, false, true⟩] := by
  decide +kernel
example : expected 1000 Marks.start (demoLocs.map (locate demoBcs)) =
    [⟨1000, 1, 10, 0, 0, 0, true, false, false, false, false⟩, ⟨1005, 2, 30, 7, 3, 0, false, true, false, false, false⟩,
     ⟨1305, 1, 12, 0, 3, 9, false, false, false, false, false⟩] := by decide +kernel

/-- C57 fails when there is code between the last label and the first location: every row is given an address that is
    too low by so much. -/
theorem code_before_loc_wrong :
    let bcs : List Bc := [⟨0, 0, 0, [0]⟩, ⟨2, 0, 1, []⟩, ⟨4, 1, 3, []⟩]
    Laid bcs ∧ (expected 0 Marks.start ([loc 3 1 10].map (locate bcs))).map Row.address = [1] ∧
    (programTable 1 (fun _ => 0) (lineSection 1 8 bcs [loc 3 1 10])).map (List.map Row.address) = some [0, 2] := by
  refine ⟨by simp only [Laid]; decide, ?_, ?_⟩ <;> decide +kernel

/-- C57 fails for the assembly source when a label follows the first instruction: that instruction is said to be at the
    label. -/
theorem label_after_first_wrong :
    let bcs : List Bc := [⟨0, 0, 0, [0]⟩, ⟨2, 0, 1, [1]⟩, ⟨4, 1, 2, []⟩]
    Laid bcs ∧ (expectedSource 0 (fun v => (1, v)) bcs.tail).map Row.address = [0, 1] ∧
    (programTable 1 (fun s => if s = 0 then 0 else 1) (lineSource 1 8 (fun v => (1, v)) bcs)).map (List.map Row.address) =
      some [1, 2, 3] := by
  refine ⟨by simp only [Laid]; decide, ?_, ?_⟩ <;> decide +kernel

/-- C57 fails when no code follows the last of two locations: a NULL pointer is followed. -/
theorem loc_at_end_crashes :
    let bcs : List Bc := [⟨0, 0, 0, [0]⟩, ⟨3, 0, 1, []⟩]
    lineSection 1 8 bcs [loc 2 1 10, loc 5 1 11] = .error .crash := by
  with_unfolding_all decide +kernel

/-- For instructions of two bytes each, an advance would be counted twice (no machine supported here has them). -/
theorem min_two_wrong :
    (programTable 2 (fun _ => 0) (lineSection 2 8 [⟨0, 0, 0, [0]⟩, ⟨3, 0, 100, []⟩, ⟨5, 100, 102, []⟩] [loc 2 1 10, loc 4 1 11])).map
      (List.map Row.address) = some [0, 200, 204] := by
  decide +kernel

/-- C57: without a label before the first location there is an error. -/
theorem no_label (min : Long) (size : Nat) (l : Loc) (s : State) (hp : s.prec = none) (h : l.sym = none) :
    genLineOp min size s l none = .error .reject := by
  have : (registers s l).2.prec = none := hp
  simp only [genLineOp, superseded, address, this, h]

end Verif.Dwarf
