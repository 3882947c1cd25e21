/-
Lemmas for C68: the report when no form fits.
-/
import Verif.Match.Find

namespace Verif.Match

open Verif.Intnum
open Verif.Expr
open Verif.Value
open Verif.Ea
open Verif.Insn

/-- The number 7 leaves out nothing. -/
theorem operandOk_seven (c : Ctx) (nequ : Nat) (x : IdInsn) (i : Nat) (f : OpInfo) (op : Operand) :
    operandOk c nequ 7 x i f op = operandOk c nequ 0 x i f op := by
  have e : sizeOk 7 x i f op = sizeOk 0 x i f op := by
    unfold sizeOk
    simp
  unfold operandOk
  rw [e]

theorem operandsOk_seven (c : Ctx) (nequ : Nat) (x : IdInsn) : ∀ (fs : List OpInfo) (ops : List Operand) (i : Nat),
    operandsOk c nequ 7 x i fs ops = operandsOk c nequ 0 x i fs ops := by
  intro fs
  induction fs with
  | nil => intro ops i; simp [operandsOk]
  | cons f fs ih =>
    intro ops i
    cases ops with
    | nil => simp [operandsOk]
    | cons op ops => rw [operandsOk, operandsOk, operandOk_seven, ih]

theorem findIn_seven (c : Ctx) (nequ : Nat) (x : IdInsn) : ∀ fs, findIn c nequ 7 x fs = findIn c nequ 0 x fs := by
  intro fs
  induction fs with
  | nil => rfl
  | cons f fs ih =>
    have e : matches_ c nequ 7 x f = matches_ c nequ 0 x f := by
      unfold matches_
      have : formOk 7 x f = formOk 0 x f := by unfold formOk; simp
      rw [this, operandsOk_seven]
    rw [findIn, findIn, e, ih]

theorem code_suspect {l : Leave} (h : l ∈ suspects) : reportFor (code l) = blame l := by
  unfold suspects at h
  simp only [List.mem_cons, List.not_mem_nil, or_false] at h
  funext f
  rcases h with rfl | rfl | rfl | rfl | rfl | rfl | rfl <;> rfl

/-- Trying the tests one after the other. -/
theorem tryBypass_spec {c : Ctx} {nequ : Nat} {x : IdInsn} (k1 : KnownRegs x) (k2 : CalmImms c nequ x) :
    ∀ ls : List Leave, (∀ l ∈ ls, l ∈ suspects) →
      (∃ done l rest f, ls = done ++ l :: rest ∧ (∀ m ∈ done, ∀ g ∈ x.group, ¬ Fits m c nequ x g) ∧ First l c nequ x f ∧
        tryBypass c nequ x (ls.map code) = .ok (blame l f)) ∨
      ((∀ m ∈ ls, ∀ g ∈ x.group, ¬ Fits m c nequ x g) ∧ tryBypass c nequ x (ls.map code) = .ok .combination) := by
  intro ls
  induction ls with
  | nil => intro _; exact .inr ⟨by simp, rfl⟩
  | cons l ls ih =>
    intro hs
    have hl : l ∈ suspects := hs l List.mem_cons_self
    obtain ⟨r, hr⟩ := findIn_total (bypass := code l) k1 k2 x.group
    obtain ⟨s1, s2⟩ := findIn_some (.inr hl) x.group r hr
    rcases r with _ | f
    · have nl := s2 rfl
      have e : tryBypass c nequ x ((l :: ls).map code) = tryBypass c nequ x (ls.map code) := by
        rw [List.map_cons, tryBypass, findMatch, hr]
      rw [e]
      rcases ih (fun m hm => hs m (List.mem_cons_of_mem _ hm)) with ⟨done, l', rest, f, h1, h2, h3, h4⟩ | ⟨h1, h2⟩
      · refine .inl ⟨l :: done, l', rest, f, by rw [h1]; rfl, ?_, h3, h4⟩
        intro m hm
        rcases List.mem_cons.1 hm with rfl | hm
        · exact nl
        · exact h2 m hm
      · refine .inr ⟨?_, h2⟩
        intro m hm
        rcases List.mem_cons.1 hm with rfl | hm
        · exact nl
        · exact h1 m hm
    · refine .inl ⟨[], l, ls, f, rfl, by simp, s1 f rfl, ?_⟩
      rw [List.map_cons, tryBypass, findMatch, hr]
      simp only
      rw [code_suspect hl]

/-- The list of the program has one more number, which cannot matter once nothing fits. -/
theorem tryBypass_skip {c : Ctx} {nequ : Nat} {x : IdInsn} (h0 : findMatch c nequ 0 x = .ok none) :
    tryBypass c nequ x [1, 2, 3, 4, 5, 6, 7, 8] = tryBypass c nequ x (suspects.map code) := by
  have h7 : findMatch c nequ 7 x = .ok none := by rw [findMatch, findIn_seven]; exact h0
  have e : tryBypass c nequ x [7, 8] = tryBypass c nequ x [8] := by
    rw [tryBypass, h7]
  show _ = tryBypass c nequ x [1, 2, 3, 4, 5, 6, 8]
  simp only [tryBypass] at e ⊢
  rw [h7]

end Verif.Match
