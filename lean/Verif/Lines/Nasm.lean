import Verif.Lines.Lemmas
namespace Verif.Lines

/-- One line of the file: the buffer gets it, and it is the end or goes on. -/
theorem nasmLoop_line (fuel size : Nat) (buf : Str) (n : Nat) (a rest : Str) (hn : '\n' ∉ a) (hz : '\x00' ∉ a)
    (hs : buf.length + 2 ≤ size) (hf : (a ++ '\n' :: rest).length < fuel) :
    (continued (buf ++ (a ++ ['\n'])) = none → nasmLoop fuel size buf n (a ++ '\n' :: rest) = some (buf ++ (a ++ ['\n']), n, rest)) ∧
    (∀ b, continued (buf ++ (a ++ ['\n'])) = some b → b.length ≤ (buf ++ a).length →
      ∃ fuel' size', rest.length < fuel' ∧ b.length + 2 ≤ size' ∧
        nasmLoop fuel size buf n (a ++ '\n' :: rest) = nasmLoop fuel' size' b (n + 1) rest) := by
  induction fuel generalizing size buf a with
  | zero => omega
  | succ fuel ih =>
    obtain ⟨k, hsz⟩ : ∃ k, size - buf.length = k + 1 := ⟨size - buf.length - 1, by omega⟩
    rw [nasmLoop, hsz]
    by_cases hl : a.length < k
    · rw [fgets_line k a rest hn hl]
      have : cstr (a ++ ['\n']) = a ++ ['\n'] := cstr_eq _ (by simp [hz])
      simp only [this]
      rw [if_pos (by simp)]
      refine ⟨fun h => by rw [h], fun b h hb => ?_⟩
      rw [h]
      rw [List.length_append] at hb
      refine ⟨fuel, growNasm b.length size, ?_, good_nasm _ _ (by omega) (by omega), rfl⟩
      simp at hf
      omega
    · rw [fgets_long k a _ hn (by omega)]
      have hz' : '\x00' ∉ a.take k := fun h => hz (List.mem_of_mem_take h)
      have hn' : '\n' ∉ a.take k := fun h => hn (List.mem_of_mem_take h)
      simp only [cstr_eq _ hz']
      rw [if_neg (last_ne _ _ (take_ne (by omega) (by omega)) hn')]
      have hlen : (buf ++ a.take k).length = buf.length + k := by simp; omega
      have := ih (growNasm (buf ++ a.take k).length size) (buf ++ a.take k) (a.drop k) (fun h => hn (List.mem_of_mem_drop h))
        (fun h => hz (List.mem_of_mem_drop h)) (good_nasm _ _ (by omega) (by omega)) (by simp at hf ⊢; omega)
      have e1 : buf ++ a.take k ++ (a.drop k ++ ['\n']) = buf ++ (a ++ ['\n']) := by
        rw [List.append_assoc, ← List.append_assoc (a.take k), List.take_append_drop]
      have e2 : buf ++ a.take k ++ a.drop k = buf ++ a := by rw [List.append_assoc, List.take_append_drop]
      rw [e1, e2] at this
      exact this

theorem nasmLoop_last (fuel size : Nat) (buf : Str) (n : Nat) (a : Str) (hn : '\n' ∉ a) (hz : '\x00' ∉ a)
    (hs : buf.length + 2 ≤ size) (hf : a.length < fuel) : nasmLoop fuel size buf n a = some (buf ++ a, n, []) := by
  induction fuel generalizing size buf a with
  | zero => omega
  | succ fuel ih =>
    obtain ⟨k, hsz⟩ : ∃ k, size - buf.length = k + 2 := ⟨size - buf.length - 2, by omega⟩
    rw [nasmLoop, hsz]
    by_cases ha : a = []
    · subst ha
      rw [fgets_end, List.append_nil]
    · by_cases hl : a.length ≤ k + 1
      · rw [fgets_last (k + 1) a hn ha hl]
        simp only [cstr_eq _ hz]
        rw [if_neg (last_ne _ _ ha hn)]
        have h0 : 0 < a.length := List.length_pos_iff.2 ha
        rw [ih _ _ [] (by simp) (by simp) (good_nasm _ _ (by simp; omega) (by omega)) (by simp; omega), List.append_nil]
      · have := fgets_long (k + 1) a [] hn (by omega)
        rw [List.append_nil, List.append_nil] at this
        rw [this]
        have hz' : '\x00' ∉ a.take (k + 1) := fun h => hz (List.mem_of_mem_take h)
        have hn' : '\n' ∉ a.take (k + 1) := fun h => hn (List.mem_of_mem_take h)
        simp only [cstr_eq _ hz']
        rw [if_neg (last_ne _ _ (take_ne (by omega) (by omega)) hn')]
        have hlen : (buf ++ a.take (k + 1)).length = buf.length + (k + 1) := by simp; omega
        rw [ih _ _ (a.drop (k + 1)) (fun h => hn (List.mem_of_mem_drop h)) (fun h => hz (List.mem_of_mem_drop h))
          (good_nasm _ _ (by omega) (by omega)) (by simp; omega)]
        rw [List.append_assoc, List.take_append_drop]

/-! ### Continued lines -/

theorem continued_part (x : Str) (crlf : Bool) : continued (x ++ '\\' :: ending crlf) = some x := by
  unfold continued ending
  cases crlf <;> simp

theorem continued_none (x : Str) (crlf : Bool) (hx : x.getLast? ≠ some '\\') (hr : '\r' ∉ x) : continued (x ++ ending crlf) = none := by
  unfold continued ending
  rcases List.eq_nil_or_concat x with rfl | ⟨y, c, rfl⟩
  · cases crlf <;> simp
  · have h1 : c ≠ '\\' := by simpa using hx
    have h2 : c ≠ '\r' := fun e => hr (by simp [e])
    cases crlf <;> simp [h1, h2]

theorem ending_eq (crlf : Bool) : ending crlf = (if crlf then ['\r'] else []) ++ ['\n'] := by cases crlf <;> rfl

theorem mem_cr {c : Char} {crlf : Bool} (h : c ∈ (if crlf then ['\r'] else [])) : c = '\r' := by cases crlf <;> simp at h; exact h

theorem nasmLoop_long (parts : List (Str × Bool)) (last : Str × Bool) (fuel size : Nat) (buf : Str) (n : Nat) (rest : Str)
    (hp : Plain (buf ++ parts.flatMap (·.1) ++ last.1)) (hb : (buf ++ parts.flatMap (·.1) ++ last.1).getLast? ≠ some '\\')
    (hs : buf.length + 2 ≤ size) (hf : (parts.flatMap writePart ++ (Lines.write last ++ rest)).length < fuel) :
    nasmLoop fuel size buf n (parts.flatMap writePart ++ (Lines.write last ++ rest)) =
      some (buf ++ parts.flatMap (·.1) ++ last.1 ++ ending last.2, n + parts.length, rest) := by
  induction parts generalizing fuel size buf n with
  | nil =>
    simp only [List.flatMap_nil, List.nil_append, List.append_nil, List.length_nil, Nat.add_zero] at *
    obtain ⟨a, h1, h2⟩ := write_eq last rest
    rw [h1] at hf ⊢
    have hpl : ∀ c ∈ last.1, c ≠ '\n' ∧ c ≠ '\r' ∧ c ≠ '\x00' := fun c hc => hp c (by simp [hc])
    have hn : '\n' ∉ a := by
      rw [h2]
      intro h
      rcases List.mem_append.1 h with h | h
      · exact (hpl _ h).1 rfl
      · exact absurd (mem_cr h) (by decide)
    have hz : '\x00' ∉ a := by
      rw [h2]
      intro h
      rcases List.mem_append.1 h with h | h
      · exact (hpl _ h).2.2 rfl
      · exact absurd (mem_cr h) (by decide)
    have e : buf ++ (a ++ ['\n']) = buf ++ last.1 ++ ending last.2 := by rw [h2, ending_eq]; simp only [List.append_assoc]
    have := (nasmLoop_line fuel size buf n a rest hn hz hs hf).1
    rw [e] at this
    exact this (continued_none _ _ hb fun h => (hp _ h).2.1 rfl)
  | cons p parts ih =>
    have e0 : (p :: parts).flatMap writePart ++ (Lines.write last ++ rest) =
        (p.1 ++ '\\' :: (if p.2 then ['\r'] else [])) ++ '\n' :: (parts.flatMap writePart ++ (Lines.write last ++ rest)) := by
      rw [List.flatMap_cons, writePart, ending_eq]
      simp only [List.append_assoc, List.cons_append, List.nil_append]
    rw [e0] at hf ⊢
    have hpl : ∀ c ∈ p.1, c ≠ '\n' ∧ c ≠ '\r' ∧ c ≠ '\x00' := fun c hc => hp c (by simp [hc])
    have hn : '\n' ∉ p.1 ++ '\\' :: (if p.2 then ['\r'] else []) := by
      intro h
      rcases List.mem_append.1 h with h | h
      · exact (hpl _ h).1 rfl
      · rcases List.mem_cons.1 h with h | h
        · exact absurd h (by decide)
        · exact absurd (mem_cr h) (by decide)
    have hz : '\x00' ∉ p.1 ++ '\\' :: (if p.2 then ['\r'] else []) := by
      intro h
      rcases List.mem_append.1 h with h | h
      · exact (hpl _ h).2.2 rfl
      · rcases List.mem_cons.1 h with h | h
        · exact absurd h (by decide)
        · exact absurd (mem_cr h) (by decide)
    have e1 : buf ++ (p.1 ++ '\\' :: (if p.2 then ['\r'] else []) ++ ['\n']) = buf ++ p.1 ++ '\\' :: ending p.2 := by
      rw [ending_eq]; simp only [List.append_assoc, List.cons_append]
    have h := (nasmLoop_line fuel size buf n _ _ hn hz hs hf).2 (buf ++ p.1) (by rw [e1]; exact continued_part _ _) (by simp)
    obtain ⟨fuel', size', hf', hs', e⟩ := h
    have e2 : buf ++ (p :: parts).flatMap (·.1) ++ last.1 = buf ++ p.1 ++ parts.flatMap (·.1) ++ last.1 := by simp
    rw [e2] at hp hb ⊢
    rw [e, ih fuel' size' (buf ++ p.1) (n + 1) hp hb hs' hf', List.length_cons, Nat.add_right_comm, Nat.add_assoc]

theorem strip_eq (x : Str) (e : Str) (he : ∀ c ∈ e, c = '\n' ∨ c = '\r') (hp : Plain x) (hz : ∀ c ∈ x, c ≠ '\x1a') : strip (x ++ e) = x := by
  unfold strip
  have h1 : (x ++ e).reverse.dropWhile (fun c => decide (c = '\n' ∨ c = '\r')) = x.reverse := by
    rw [List.reverse_append, List.dropWhile_append_of_pos (by simpa using he)]
    cases hx : x.reverse with
    | nil => rfl
    | cons c y =>
      have hc := hp c (List.mem_reverse.1 (hx ▸ List.mem_cons_self ..))
      rw [List.dropWhile_cons, if_neg (by simp [hc.1, hc.2.1])]
  rw [h1, List.reverse_reverse]
  exact takeWhile_ne _ x fun h => hz _ h rfl

theorem readLine_long (l : Long) (h : l.Ok) (rest : Str) (fuel : Nat) (hf : (l.write ++ rest).length < fuel) :
    readLine fuel (l.write ++ rest) = some (.line (l.text, 1 + l.parts.length) rest) := by
  unfold readLine
  have := nasmLoop_long l.parts l.last fuel 512 [] 0 rest (by rw [List.nil_append]; exact h.plain) (by rw [List.nil_append]; exact h.backslash) (by simp)
    (by simpa [Long.write] using hf)
  rw [List.nil_append, Nat.zero_add] at this
  rw [Long.write, List.append_assoc, this, Option.map_some]
  simp only
  have hne : ∀ b, ending b ≠ [] := by intro b; cases b <;> simp [ending]
  rw [if_neg (by simp [hne])]
  have e := strip_eq l.text (ending l.last.2) (by intro c hc; unfold ending at hc; split at hc <;> simp at hc; rcases hc with h | h <;> simp [h]; simp [hc]) h.plain h.ctrlZ
  unfold Long.text at e ⊢
  rw [e]

theorem readLine_last (a : Str) (hp : Plain a) (hz : ∀ c ∈ a, c ≠ '\x1a') (fuel : Nat) (hf : a.length < fuel) :
    readLine fuel a = some (if a = [] then .eof else .line (a, 1) []) := by
  unfold readLine
  have := nasmLoop_last fuel 512 [] 0 a (fun h => (hp _ h).1 rfl) (fun h => (hp _ h).2.2 rfl) (by simp) hf
  have e := strip_eq a [] (by simp) hp hz
  rw [List.append_nil] at e
  rw [this, Option.map_some, List.nil_append]
  simp only [e]

theorem nasmLines_eq (ls : List Long) (tail : Str) (hl : ∀ l ∈ ls, l.Ok) (hp : Plain tail) (hz : ∀ c ∈ tail, c ≠ '\x1a') (fuel at_ : Nat)
    (hf : (ls.flatMap Long.write ++ tail).length + 1 < fuel) :
    nasmLines fuel at_ (ls.flatMap Long.write ++ tail) = some (numbered at_ (ls ++ if tail = [] then [] else [⟨[], (tail, false)⟩])) := by
  induction ls generalizing fuel at_ with
  | nil =>
    obtain ⟨fuel, rfl⟩ : ∃ k, fuel = k + 2 := ⟨fuel - 2, by omega⟩
    simp only [List.flatMap_nil, List.nil_append] at hf ⊢
    unfold nasmLines
    rw [readLine_last tail hp hz _ (by omega)]
    by_cases h : tail = []
    · simp [h, numbered]
    · simp only [if_neg h]
      unfold nasmLines
      rw [readLine_last [] (by simp [Plain]) (by simp) _ (by simp)]
      simp [numbered, Long.text]
  | cons l ls ih =>
    obtain ⟨fuel, rfl⟩ : ∃ k, fuel = k + 1 := ⟨fuel - 1, by omega⟩
    rw [List.flatMap_cons, List.append_assoc] at hf ⊢
    unfold nasmLines
    rw [readLine_long l (hl l (by simp)) _ _ (by omega)]
    have hw : 1 ≤ l.write.length := by unfold Long.write write ending; cases l.last.2 <;> simp <;> omega
    have := ih (fun l h => hl l (by simp [h])) fuel (at_ + (1 + l.parts.length)) (by rw [List.length_append] at hf; omega)
    simp only [this, Option.map_some, List.cons_append, numbered]
    rw [show at_ + (1 + l.parts.length) = at_ + l.parts.length + 1 by omega]

end Verif.Lines
