import Verif.Lines.Spec
namespace Verif.Lines

/-! ### fgets -/

theorem fgets_long (n : Nat) (a b : Str) (hn : '\n' ∉ a) (hl : n ≤ a.length) : fgets (n + 1) (a ++ b) = some (a.take n, a.drop n ++ b) := by
  induction n generalizing a with
  | zero => rfl
  | succ n ih =>
    cases a with
    | nil => simp at hl
    | cons c a =>
      have hc : c ≠ '\n' := fun h => hn (h ▸ List.mem_cons_self ..)
      have := ih a (fun h => hn (List.mem_cons_of_mem _ h)) (by simpa using hl)
      rw [List.cons_append, fgets, if_neg hc, this]
      rfl

theorem fgets_line (n : Nat) (a b : Str) (hn : '\n' ∉ a) (hl : a.length < n) : fgets (n + 1) (a ++ '\n' :: b) = some (a ++ ['\n'], b) := by
  induction n generalizing a with
  | zero => simp at hl
  | succ n ih =>
    cases a with
    | nil => simp [fgets]
    | cons c a =>
      have hc : c ≠ '\n' := fun h => hn (h ▸ List.mem_cons_self ..)
      have := ih a (fun h => hn (List.mem_cons_of_mem _ h)) (by simpa using hl)
      rw [List.cons_append, fgets, if_neg hc, this]
      rfl

theorem fgets_end (n : Nat) : fgets (n + 2) [] = none := rfl

theorem fgets_last (n : Nat) (a : Str) (hn : '\n' ∉ a) (ha : a ≠ []) (hl : a.length ≤ n) : fgets (n + 1) a = some (a, []) := by
  induction n generalizing a with
  | zero => simp at hl; exact absurd hl ha
  | succ n ih =>
    cases a with
    | nil => exact absurd rfl ha
    | cons c a =>
      have hc : c ≠ '\n' := fun h => hn (h ▸ List.mem_cons_self ..)
      rw [fgets, if_neg hc]
      by_cases h : a = []
      · subst h
        cases n <;> rfl
      · rw [ih a (fun h => hn (List.mem_cons_of_mem _ h)) h (by simpa using hl)]

theorem takeWhile_ne (x : Char) (s : Str) (h : x ∉ s) : s.takeWhile (fun c => decide (c ≠ x)) = s := by
  induction s with
  | nil => rfl
  | cons c s ih =>
    have hc : c ≠ x := fun e => h (e ▸ List.mem_cons_self ..)
    rw [List.takeWhile_cons, if_pos (by simp [hc]), ih fun hm => h (List.mem_cons_of_mem _ hm)]

theorem cstr_eq (s : Str) (h : '\x00' ∉ s) : cstr s = s := takeWhile_ne _ s h

theorem last_ne (buf s : Str) (hs : s ≠ []) (hn : '\n' ∉ s) : (buf ++ s).getLast? ≠ some '\n' := by
  rw [List.getLast?_append_of_ne_nil _ hs]
  intro h
  exact hn (List.mem_of_getLast? h)

/-- There is always room for a character. -/
def Good (grow : Nat → Nat → Nat) : Prop := ∀ used size, used + 1 ≤ size → 2 ≤ size → used + 2 ≤ grow used size

theorem good_raw : Good growRaw := by intro u s h1 h2; unfold growRaw; split <;> omega
theorem good_nasm : Good growNasm := by intro u s h1 h2; unfold growNasm; split <;> omega

theorem take_ne {a : Str} {n : Nat} (hn : 0 < n) (h : n ≤ a.length) : a.take n ≠ [] := by
  intro e
  have := congrArg List.length e
  simp at this
  rcases this with h | h
  · omega
  · simp [h] at *; omega

theorem loop_line {grow : Nat → Nat → Nat} (hg : Good grow) (fuel size : Nat) (buf a rest : Str) (hn : '\n' ∉ a) (hz : '\x00' ∉ a)
    (hs : buf.length + 2 ≤ size) (hf : (a ++ '\n' :: rest).length < fuel) :
    loop grow fuel size buf (a ++ '\n' :: rest) = some (buf ++ (a ++ ['\n']), rest) := by
  induction fuel generalizing size buf a with
  | zero => omega
  | succ fuel ih =>
    obtain ⟨n, hsz⟩ : ∃ n, size - buf.length = n + 1 := ⟨size - buf.length - 1, by omega⟩
    unfold loop
    rw [hsz]
    by_cases hl : a.length < n
    · rw [fgets_line n a rest hn hl]
      have : cstr (a ++ ['\n']) = a ++ ['\n'] := cstr_eq _ (by simp [hz])
      simp only [this]
      rw [if_pos (by simp)]
    · rw [fgets_long n a _ hn (by omega)]
      have hz' : '\x00' ∉ a.take n := fun h => hz (List.mem_of_mem_take h)
      have hn' : '\n' ∉ a.take n := fun h => hn (List.mem_of_mem_take h)
      simp only [cstr_eq _ hz']
      rw [if_neg (last_ne _ _ (take_ne (by omega) (by omega)) hn')]
      have hlen : (buf ++ a.take n).length = buf.length + n := by simp; omega
      rw [ih _ _ (a.drop n) (fun h => hn (List.mem_of_mem_drop h)) (fun h => hz (List.mem_of_mem_drop h))
        (hg _ _ (by omega) (by omega)) (by simp at hf ⊢; omega)]
      rw [List.append_assoc, ← List.append_assoc (a.take n), List.take_append_drop]

theorem loop_last {grow : Nat → Nat → Nat} (hg : Good grow) (fuel size : Nat) (buf a : Str) (hn : '\n' ∉ a) (hz : '\x00' ∉ a)
    (hs : buf.length + 2 ≤ size) (hf : a.length < fuel) : loop grow fuel size buf a = some (buf ++ a, []) := by
  induction fuel generalizing size buf a with
  | zero => omega
  | succ fuel ih =>
    obtain ⟨n, hsz⟩ : ∃ n, size - buf.length = n + 2 := ⟨size - buf.length - 2, by omega⟩
    unfold loop
    rw [hsz]
    by_cases ha : a = []
    · subst ha
      rw [fgets_end, List.append_nil]
    · by_cases hl : a.length ≤ n + 1
      · rw [fgets_last (n + 1) a hn ha hl]
        simp only [cstr_eq _ hz]
        rw [if_neg (last_ne _ _ ha hn)]
        have h0 : 0 < a.length := List.length_pos_iff.2 ha
        rw [ih _ _ [] (by simp) (by simp) (hg _ _ (by simp; omega) (by omega)) (by simp; omega), List.append_nil]
      · have := fgets_long (n + 1) a [] hn (by omega)
        rw [List.append_nil, List.append_nil] at this
        rw [this]
        have hz' : '\x00' ∉ a.take (n + 1) := fun h => hz (List.mem_of_mem_take h)
        have hn' : '\n' ∉ a.take (n + 1) := fun h => hn (List.mem_of_mem_take h)
        simp only [cstr_eq _ hz']
        rw [if_neg (last_ne _ _ (take_ne (by omega) (by omega)) hn')]
        have hlen : (buf ++ a.take (n + 1)).length = buf.length + (n + 1) := by simp; omega
        rw [ih _ _ (a.drop (n + 1)) (fun h => hn (List.mem_of_mem_drop h)) (fun h => hz (List.mem_of_mem_drop h))
          (hg _ _ (by omega) (by omega)) (by simp; omega)]
        rw [List.append_assoc, List.take_append_drop]

/-! ### All lines -/

/-- The lines that are read whole. -/
structure Reads (grow : Nat → Nat → Nat) (P : Str → Prop) : Prop where
  line : ∀ fuel a rest, '\n' ∉ a → '\x00' ∉ a → P a → (a ++ '\n' :: rest).length < fuel →
    loop grow fuel 512 [] (a ++ '\n' :: rest) = some (a ++ ['\n'], rest)
  last : ∀ fuel a, '\n' ∉ a → '\x00' ∉ a → P a → a.length < fuel → loop grow fuel 512 [] a = some (a, [])

theorem reads_raw : Reads growRaw fun _ => True where
  line := fun fuel a rest h1 h2 _ h3 => by have := loop_line good_raw fuel 512 [] a rest h1 h2 (by simp) h3; simpa using this
  last := fun fuel a h1 h2 _ h3 => by have := loop_last good_raw fuel 512 [] a h1 h2 (by simp) h3; simpa using this

theorem reads_cpp : Reads growCpp fun a => a.length ≤ 510 where
  line := by
    intro fuel a rest hn hz hl hf
    obtain ⟨fuel, rfl⟩ : ∃ k, fuel = k + 1 := ⟨fuel - 1, by omega⟩
    unfold loop
    rw [show 512 - ([] : Str).length = 511 + 1 from rfl, fgets_line 511 a rest hn (by omega)]
    have : cstr (a ++ ['\n']) = a ++ ['\n'] := cstr_eq _ (by simp [hz])
    simp only [this]
    rw [if_pos (by simp)]
    rfl
  last := by
    intro fuel a hn hz hl hf
    obtain ⟨fuel, rfl⟩ : ∃ k, fuel = k + 1 := ⟨fuel - 1, by omega⟩
    unfold loop
    by_cases ha : a = []
    · subst ha; rfl
    · rw [show 512 - ([] : Str).length = 511 + 1 from rfl, fgets_last 511 a hn ha (by omega)]
      simp only [cstr_eq _ hz]
      rw [if_neg (last_ne _ _ ha hn)]
      have h0 : 0 < a.length := List.length_pos_iff.2 ha
      obtain ⟨fuel, rfl⟩ : ∃ k, fuel = k + 1 := ⟨fuel - 1, by omega⟩
      unfold loop
      have hg : growCpp ([] ++ a).length 512 = 512 := by unfold growCpp; rw [if_neg (by simp; omega)]
      obtain ⟨k, hk⟩ : ∃ k, 512 - ([] ++ a).length = k + 2 := ⟨510 - a.length, by simp; omega⟩
      rw [hg, hk, fgets_end]
      rfl

theorem plain_takeWhile (s t : Str) (h : Plain s) (ht : t = [] ∨ ∃ c u, t = c :: u ∧ (c = '\r' ∨ c = '\n')) :
    (s ++ t).takeWhile (fun c => decide (c ≠ '\r' ∧ c ≠ '\n')) = s := by
  induction s with
  | nil => rcases ht with rfl | ⟨c, u, rfl, rfl | rfl⟩ <;> simp
  | cons c s ih =>
    have hc := h c (by simp)
    rw [List.cons_append, List.takeWhile_cons, if_pos (by simp [hc.1, hc.2.1]), ih fun d hd => h d (by simp [hd])]

theorem write_eq (l : Str × Bool) (rest : Str) : ∃ a, Lines.write l ++ rest = a ++ '\n' :: rest ∧ a = l.1 ++ (if l.2 then ['\r'] else []) := by
  refine ⟨_, ?_, rfl⟩
  unfold write ending
  cases l.2 <;> simp

theorem getLine_write {grow : Nat → Nat → Nat} {P : Str → Prop} (hr : Reads grow P) (l : Str × Bool) (rest : Str) (hp : Plain l.1)
    (hP : P (l.1 ++ (if l.2 then ['\r'] else []))) (fuel : Nat) (hf : (Lines.write l ++ rest).length < fuel) :
    getLine grow fuel (Lines.write l ++ rest) = some (.line l.1 rest) := by
  obtain ⟨a, h1, h2⟩ := write_eq l rest
  rw [← h2] at hP
  rw [h1] at hf ⊢
  have hn : '\n' ∉ a := by
    rw [h2]
    intro h
    rcases List.mem_append.1 h with h | h
    · exact (hp _ h).1 rfl
    · cases l.2 <;> simp at h
  have hz : '\x00' ∉ a := by
    rw [h2]
    intro h
    rcases List.mem_append.1 h with h | h
    · exact (hp _ h).2.2 rfl
    · cases l.2 <;> simp at h
  unfold getLine
  rw [hr.line fuel a rest hn hz hP hf, Option.map_some]
  simp only
  rw [if_neg (by simp)]
  congr 2
  rw [h2]
  cases l.2
  · have := plain_takeWhile l.1 ['\n'] hp (.inr ⟨_, _, rfl, .inr rfl⟩)
    simpa using this
  · have := plain_takeWhile l.1 ['\r', '\n'] hp (.inr ⟨_, _, rfl, .inl rfl⟩)
    simpa using this

theorem getLine_last {grow : Nat → Nat → Nat} {P : Str → Prop} (hr : Reads grow P) (a : Str) (hp : Plain a) (hP : P a) (fuel : Nat)
    (hf : a.length < fuel) : getLine grow fuel a = some (if a = [] then .eof else .line a []) := by
  unfold getLine
  rw [hr.last fuel a (fun h => (hp _ h).1 rfl) (fun h => (hp _ h).2.2 rfl) hP hf, Option.map_some]
  have := plain_takeWhile a [] hp (.inl rfl)
  rw [List.append_nil] at this
  simp only [this]

theorem lines_eq {grow : Nat → Nat → Nat} {P : Str → Prop} (hr : Reads grow P) (h0 : P []) (ls : List (Str × Bool)) (tail : Str)
    (hp : ∀ l ∈ ls, Plain l.1 ∧ P (l.1 ++ (if l.2 then ['\r'] else []))) (ht : Plain tail ∧ P tail) (fuel : Nat)
    (hf : (ls.flatMap Lines.write ++ tail).length + 1 < fuel) :
    lines grow fuel (ls.flatMap Lines.write ++ tail) = some (ls.map (·.1) ++ (if tail = [] then [] else [tail])) := by
  induction ls generalizing fuel with
  | nil =>
    obtain ⟨fuel, rfl⟩ : ∃ k, fuel = k + 2 := ⟨fuel - 2, by omega⟩
    simp only [List.flatMap_nil, List.nil_append, List.map_nil] at hf ⊢
    unfold lines
    rw [getLine_last hr tail ht.1 ht.2 _ (by omega)]
    by_cases h : tail = []
    · simp [h]
    · simp only [if_neg h]
      unfold lines
      rw [getLine_last hr [] (by simp [Plain]) h0 _ (by simp)]
      rfl
  | cons l ls ih =>
    obtain ⟨fuel, rfl⟩ : ∃ k, fuel = k + 1 := ⟨fuel - 1, by omega⟩
    rw [List.flatMap_cons, List.append_assoc] at hf ⊢
    unfold lines
    have hl := hp l (by simp)
    rw [getLine_write hr l _ hl.1 hl.2 _ (by omega)]
    have hw : 1 ≤ (Lines.write l).length := by unfold write ending; cases l.2 <;> simp
    have := ih (fun l hl => hp l (by simp [hl])) fuel (by rw [List.length_append] at hf; omega)
    simp only [this, Option.map_some, List.map_cons, List.cons_append]

/-! ### Hanging -/

theorem loop_full (fuel : Nat) (buf f : Str) (hl : buf.length = 511) (hb : buf.getLast? ≠ some '\n') : loop growCpp fuel 512 buf f = none := by
  induction fuel with
  | zero => rfl
  | succ fuel ih =>
    unfold loop
    rw [hl]
    show (if (buf ++ cstr []).getLast? = some '\n' then _ else _) = none
    rw [show cstr [] = [] from rfl, List.append_nil, if_neg hb, hl]
    exact ih

end Verif.Lines
