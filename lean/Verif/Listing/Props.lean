import Verif.Listing.Rows
import Mathlib.Tactic.FinCases
/-
C86: the listing shows each line of the source once, with its address, its bytes and what a linker fills in.
-/
namespace Verif.Listing
open Verif.Elf (Byte)

theorem written_eq {c : Code} {m : Nat} (hm : c.mult = some (m + 1)) : c.written = !c.reserve := by
  unfold Code.written; rw [hm]; simp

theorem gap_eq {c : Code} {m : Nat} (hm : c.mult = some (m + 1)) : c.gap = c.reserve := by unfold Code.gap; rw [hm]; rfl

theorem row_gap (n a : Nat) (s : List Char) :
    row (lineNo n ++ [' '] ++ address a ++ " <gap>".toList ++ blanks 18 ++ s) = ⟨n, .gap a (strip s)⟩ := by
  have e : lineNo n ++ [' '] ++ address a ++ " <gap>".toList ++ blanks 18 ++ s =
      lineNo n ++ [' '] ++ (address a ++ (' ' :: ("<gap>".toList ++ (blanks 18 ++ s)))) := by
    simp only [List.append_assoc]; rfl
  rw [e, row_number, body_address]
  exact congrArg (fun b => Row.mk n (Body.gap a b)) (strip_blanks 18 s)

/-- What a line of the right form puts into the listing. -/
theorem line_read (n : Nat) (hist relocs : Nat → List Nat) (l : Line) (sect : Nat) (cs : List Code) (hc : l.code = some (sect, cs)) (ok : l.Ok)
    (rest : List Nat) (hs : (hist sect).Sublist (l.addrs sect ++ rest)) (hn : (l.addrs sect ++ rest).Nodup)
    (hi : ∀ x ∈ l.addrs sect, x ∈ hist sect ↔ x ∈ relocs sect) :
    let a := pieces ⟨n, hist sect, [], some l.source⟩ cs
    (∀ r ∈ a.1, Plain r) ∧ (a.1.map row).map (·.number) = List.range' n a.1.length ∧ a.2.n = n + a.1.length ∧
      (∀ es, entries (a.1.map row ++ es) = l.entry relocs :: entries es) ∧ a.2.rs.Sublist rest ∧ ∀ x ∈ rest, x ∈ a.2.rs ↔ x ∈ hist sect := by
  obtain ⟨c, m, e1, e2, e3, e4, e5⟩ := ok.one sect cs hc
  subst e1
  intro a
  have ha : a = (((piece ⟨n, hist sect, [], some l.source⟩ c).1 ++ []), (piece ⟨n, hist sect, [], some l.source⟩ c).2) := rfl
  rw [List.append_nil] at ha
  have hw := written_eq e2
  have hg := gap_eq e2
  have hadd : l.addrs sect = if c.reserve then [] else c.vals.map fun v => c.offset + v.offset := by
    unfold Line.addrs
    rw [hc]
    simp
  have hent : l.entry relocs = if c.reserve then ⟨some c.offset, [], true, false, strip l.source⟩
      else ⟨some c.offset, itemsFor (c.filled (relocs sect)) 0 c.copy, false, decide (1 < c.mult.getD 1), strip l.source⟩ := by
    unfold Line.entry
    rw [hc]
  cases hr : c.reserve with
  | true =>
    rw [hr] at hw hg hadd hent
    simp only [Bool.not_true, if_true] at hw hadd hent
    have hp : a = ([lineNo n ++ [' '] ++ address c.offset ++ " <gap>".toList ++ blanks 18 ++ l.source],
        ⟨n + 1, hist sect, [], some l.source⟩) := by
      rw [ha]
      unfold piece
      rw [hw, hg]
      rfl
    rw [hp, hent]
    rw [hadd] at hs hn hi
    refine ⟨?_, ?_, rfl, ?_, hs, fun x _ => Iff.rfl⟩
    · intro x hx
      rw [List.mem_singleton.mp hx]
      exact (((((plain_lineNo n).append (by unfold Plain; decide)).append (plain_address _)).append (by unfold Plain; decide)).append
        (plain_replicate _ (by decide))).append ok.source
    · simp only [List.map_cons, List.map_nil]
      rw [row_gap]
      rfl
    · intro es
      simp only [List.map_cons, List.map_nil]
      rw [row_gap]
      rfl
  | false =>
    rw [hr] at hw hg hadd hent
    simp only [Bool.not_false, Bool.false_eq_true, if_false] at hw hadd hent
    rw [hadd] at hs hn hi
    obtain ⟨k1, k2, k3⟩ := marks_eq c.offset c.vals (hist sect) rest hs hn
    have hfil : (marks c.offset c.vals (hist sect)).1 = c.filled (relocs sect) := by
      rw [k1]
      unfold Code.filled
      refine List.filter_congr fun v hv => ?_
      have := hi _ (List.mem_map.mpr ⟨v, hv, rfl⟩)
      simp [this]
    have hah : Ahead (c.filled (relocs sect)) 0 := by
      refine ⟨e5.sublist List.filter_sublist, fun v hv => e4 v ((List.mem_filter.mp hv).1), fun v hv => ?_⟩
      have := e4 v ((List.mem_filter.mp hv).1)
      omega
    have hcopy : c.shown = c.copy := by
      unfold Code.shown Code.copy
      rw [hw, e2]
      rfl
    have hrept : c.rept = decide (1 < c.mult.getD 1) := by unfold Code.rept; rw [e2]; rfl
    obtain ⟨r1, r2, r3, r4⟩ := rows_read n c.offset c.rept c.shown.length 0 c.shown (c.filled (relocs sect)) (some l.source) (Nat.le_refl _)
      (by rw [hcopy]; exact e3 hr) hah (by intro t ht; cases ht; exact ok.source)
    have hp : a = (rows n c.offset c.rept c.shown.length 0 c.shown (c.filled (relocs sect)) (some l.source),
        ⟨n + (rows n c.offset c.rept c.shown.length 0 c.shown (c.filled (relocs sect)) (some l.source)).length,
          (marks c.offset c.vals (hist sect)).2, c.filled (relocs sect), none⟩) := by
      rw [ha]
      unfold piece
      rw [hw, hg]
      simp only [if_true, Bool.false_eq_true, if_false, List.nil_append]
      rw [hfil, if_neg r2]
    rw [hp, hent]
    refine ⟨r1, r3, rfl, ?_, k2, k3⟩
    intro es
    rw [r4 es, hcopy, hrept]
    rfl

theorem output_read (n : Nat) (hist relocs : Nat → List Nat) (ls : List Line) (ok : ∀ l ∈ ls, l.Ok)
    (hs : ∀ k, (hist k).Sublist (ls.flatMap (·.addrs k))) (hn : ∀ k, (ls.flatMap (·.addrs k)).Nodup)
    (hi : ∀ k, ∀ x ∈ ls.flatMap (·.addrs k), x ∈ hist k ↔ x ∈ relocs k) :
    (∀ r ∈ output n hist ls, Plain r) ∧ ((output n hist ls).map row).map (·.number) = List.range' n (output n hist ls).length ∧
      entries ((output n hist ls).map row) = ls.map (·.entry relocs) := by
  induction ls generalizing n hist with
  | nil => exact ⟨(by intro r h; cases h), rfl, rfl⟩
  | cons l ls ih =>
    have ok' : ∀ l ∈ ls, l.Ok := fun l h => ok l (List.mem_cons_of_mem _ h)
    have okl := ok l List.mem_cons_self
    simp only [List.flatMap_cons] at hs hn hi
    cases hc : l.code with
    | none =>
      obtain ⟨source, code⟩ := l
      simp only at hc
      subst hc
      have hz : ∀ k, Line.addrs ⟨source, none⟩ k = [] := fun k => rfl
      simp only [hz, List.nil_append] at hs hn hi
      obtain ⟨i1, i2, i3⟩ := ih (n + 1) hist ok' hs hn hi
      have hrow : row (lineNo n ++ [' '] ++ blanks 32 ++ source) = ⟨n, .text (strip source)⟩ := by
        rw [List.append_assoc (lineNo n ++ [' ']), row_number]
        exact congrArg (fun b => Row.mk n (Body.text b)) (strip_blanks 31 source)
      rw [output]
      refine ⟨?_, ?_, ?_⟩
      · intro r hr
        rcases List.mem_cons.mp hr with e | hr
        · rw [e]
          exact (((plain_lineNo n).append (by unfold Plain; decide)).append (plain_replicate _ (by decide))).append okl.source
        · exact i1 r hr
      · rw [List.map_cons, List.map_cons, i2, hrow, List.length_cons, List.range'_succ]
      · rw [List.map_cons, hrow, entries]
        simp only
        rw [i3]
        rfl
    | some x =>
      obtain ⟨sect, cs⟩ := x
      have hl := line_read n hist relocs l sect cs hc okl (ls.flatMap (·.addrs sect)) (hs sect) (hn sect)
        (fun x hx => hi sect x (List.mem_append_left _ hx))
      have ho : output n hist (l :: ls) = (pieces ⟨n, hist sect, [], some l.source⟩ cs).1 ++
          output (pieces ⟨n, hist sect, [], some l.source⟩ cs).2.n
            (fun k => if k = sect then (pieces ⟨n, hist sect, [], some l.source⟩ cs).2.rs else hist k) ls := by
        obtain ⟨source, code⟩ := l
        simp only at hc
        subst hc
        rw [output]
      have hother : ∀ k, k ≠ sect → l.addrs k = [] := by
        intro k hk
        unfold Line.addrs
        rw [hc]
        simp only
        rw [if_neg (fun e => hk e.symm)]
      rw [ho]
      generalize pieces ⟨n, hist sect, [], some l.source⟩ cs = a at hl
      obtain ⟨b1, b2, b3, b4, b5, b6⟩ := hl
      have j1 : ∀ k, List.Sublist (if k = sect then a.2.rs else hist k) (ls.flatMap (·.addrs k)) := by
        intro k
        by_cases hk : k = sect
        · subst hk; simpa using b5
        · have := hs k
          rw [hother k hk] at this
          simpa [hk] using this
      have j2 : ∀ k, (ls.flatMap (·.addrs k)).Nodup := fun k => (List.nodup_append.mp (hn k)).2.1
      have j3 : ∀ k, ∀ x ∈ ls.flatMap (·.addrs k), x ∈ (if k = sect then a.2.rs else hist k) ↔ x ∈ relocs k := by
        intro k x hx
        by_cases hk : k = sect
        · subst hk
          rw [if_pos rfl, b6 x hx]
          exact hi k x (List.mem_append_right _ hx)
        · rw [if_neg hk]
          exact hi k x (List.mem_append_right _ hx)
      obtain ⟨i1, i2, i3⟩ := ih a.2.n (fun k => if k = sect then a.2.rs else hist k) ok' j1 j2 j3
      refine ⟨?_, ?_, ?_⟩
      · intro r hr
        rcases List.mem_append.mp hr with h | h
        · exact b1 r h
        · exact i1 r h
      · rw [List.map_append, List.map_append, b2, i2, b3, List.length_append, List.range'_append_1]
      · rw [List.map_append, b4, i3, List.map_cons]

/-- C86: in the listing every line of the source is found once, in order: with the text; with the address and the bytes of one copy of its
    bytecode, marked if there are copies, and with brackets around exactly the values for which there are relocations, round for relative
    ones; or as a gap.  The rows are numbered from 1.  Partial: lines have at most one bytecode, with bytes unless it leaves space, and every
    relocation belongs to a value that is listed. -/
theorem listing_read_partial (relocs : Nat → List Nat) (ls : List Line) (ok : ∀ l ∈ ls, l.Ok)
    (hs : ∀ sect, (relocs sect).Sublist (ls.flatMap (·.addrs sect))) (hn : ∀ sect, (ls.flatMap (·.addrs sect)).Nodup) :
    (read (listing relocs ls)).2 = ls.map (·.entry relocs) ∧
      (read (listing relocs ls)).1 = List.range' 1 (lines (listing relocs ls)).length := by
  obtain ⟨h1, h2, h3⟩ := output_read 1 relocs relocs ls ok hs hn (fun _ _ _ => Iff.rfl)
  have hl := lines_rows (output 1 relocs ls) h1
  unfold read listing
  simp only
  rw [hl]
  exact ⟨h3, h2⟩

/-! ### A case that meets the hypotheses -/

/-- `start:` / `jmp ext` / `times 3 db 1` / `dq ext, 5` / `resb 8` / `db` of twelve bytes. -/
def sample : List Line :=
  [⟨"start:".toList, none⟩,
   ⟨" jmp ext".toList, some (0, [⟨0, some 1, false, [0xE9, 0xFB, 0xFF, 0xFF, 0xFF], [⟨1, 4, true⟩], true⟩])⟩,
   ⟨" times 3 db 1".toList, some (0, [⟨5, some 3, false, [1, 1, 1], [], true⟩])⟩,
   ⟨" dq ext, $$".toList, some (1, [⟨0, some 1, false, List.replicate 16 0, [⟨0, 8, false⟩, ⟨8, 8, false⟩], false⟩])⟩,
   ⟨" resb 8".toList, some (1, [⟨16, some 1, true, List.replicate 8 0, [], false⟩])⟩,
   ⟨" db \"Hello, world\"".toList, some (0, [⟨8, some 1, false, [72, 101, 108, 108, 111, 44, 32, 119, 111, 114, 108, 100], [], false⟩])⟩]

def sampleRelocs : Nat → List Nat := fun k => if k = 0 then [1] else if k = 1 then [0, 8] else []

theorem sample_ok : ∀ l ∈ sample, l.Ok := by
  intro l hl
  fin_cases hl
  · exact ⟨by decide, by intro _ _ h; cases h⟩
  · exact ⟨by decide, by intro _ _ h; cases h; exact ⟨_, 0, rfl, rfl, by decide, by decide, by decide⟩⟩
  · exact ⟨by decide, by intro _ _ h; cases h; exact ⟨_, 2, rfl, rfl, by decide, by decide, by decide⟩⟩
  · exact ⟨by decide, by intro _ _ h; cases h; exact ⟨_, 0, rfl, rfl, by decide, by decide, by decide⟩⟩
  · exact ⟨by decide, by intro _ _ h; cases h; exact ⟨_, 0, rfl, rfl, by decide, by decide, by decide⟩⟩
  · exact ⟨by decide, by intro _ _ h; cases h; exact ⟨_, 0, rfl, rfl, by decide, by decide, by decide⟩⟩

theorem sample_addrs (k : Nat) : sample.flatMap (·.addrs k) = sampleRelocs k := by
  unfold sample sampleRelocs Line.addrs
  by_cases h0 : k = 0
  · subst h0; decide
  · by_cases h1 : k = 1
    · subst h1; decide
    · simp [h0, h1, Ne.symm h0, Ne.symm h1]

example : (read (listing sampleRelocs sample)).2 = sample.map (·.entry sampleRelocs) :=
  (listing_read_partial sampleRelocs sample sample_ok (fun k => by rw [sample_addrs]) (fun k => by
    rw [sample_addrs]
    unfold sampleRelocs
    split
    · decide
    · split <;> decide)).1

/-- The rows of the sample. -/
example : output 1 sampleRelocs sample =
    ["     1                                 start:",
     "     2 00000000 E9(FBFFFFFF)            jmp ext",
     "     3 00000005 01<rept>                times 3 db 1",
     "     4 00000000 [0000000000000000]-     dq ext, $$",
     "     5 00000000 [0000000000000000] ",
     "     6 00000010 <gap>                   resb 8",
     "     7 00000008 48656C6C6F2C20776F-     db \"Hello, world\"",
     "     8 00000008 726C64             "].map String.toList := by
  with_unfolding_all decide +kernel

/-! ### Where the listing fails -/

/-- The rows of one line of section 0. -/
def rowsOf (relocs : List Nat) (source : String) (cs : List Code) : List (List Char) :=
  output 1 (fun _ => relocs) [⟨source.toList, some (0, cs)⟩]

/-- A row that goes on shows the address of the first byte of the bytecode again, not that of its own first byte: of twelve bytes at 8, the last
    three are at 17. -/
theorem continued_address_wrong :
    rowsOf [] "db 1, ..." [⟨8, some 1, false, List.replicate 12 1, [], false⟩] =
      ["     1 00000008 010101010101010101-    db 1, ...", "     2 00000008 010101             "].map String.toList := by
  with_unfolding_all decide +kernel

/-- A line whose bytecode has no bytes (`align 4` where nothing is needed) is not in the listing at all. -/
theorem source_dropped : rowsOf [] "align 4" [⟨4, some 1, false, [], [], false⟩] = [] := by
  with_unfolding_all decide +kernel

/-- Whether `times 0 nop` is shown as a gap or not at all depends on what the stack held before: `gap` is not set. -/
theorem gap_unset :
    rowsOf [] "times 0 nop" [⟨4, some 0, false, [], [], true⟩] ≠ rowsOf [] "times 0 nop" [⟨4, some 0, false, [], [], false⟩] := by
  with_unfolding_all decide +kernel

/-- Of two bytecodes in a line the first mark is used for both: the `nop` after `dd ext` is shown with a bracket although nothing is filled in
    there. -/
theorem stale_mark :
    rowsOf [0] "m" [⟨0, some 1, false, [0, 0, 0, 0], [⟨0, 4, false⟩], false⟩, ⟨4, some 1, false, [0x90], [], false⟩] =
      ["     1 00000000 [00000000]             m", "     2 00000004 [90                "].map String.toList := by
  with_unfolding_all decide +kernel

/-- A relocation whose bytecode is not listed hides all that follow: the reference at 4 is not marked. -/
theorem marks_stuck :
    rowsOf [0, 4] "dd ext" [⟨4, some 1, false, [0, 0, 0, 0], [⟨0, 4, false⟩], false⟩] =
      ["     1 00000004 00000000               dd ext"].map String.toList := by
  with_unfolding_all decide +kernel

end Verif.Listing
