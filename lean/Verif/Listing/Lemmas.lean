import Verif.Listing.Spec
/-
Lemmas about the listing: numbers and bytes are read back.
-/
namespace Verif.Listing
open Verif.Elf (Byte)

/-! ### Lines -/

theorem lines_rows (rs : List (List Char)) (h : ∀ r ∈ rs, ∀ c ∈ r, c ≠ '\n') : lines (rs.flatMap (· ++ ['\n'])) = rs := by
  induction rs with
  | nil => rfl
  | cons r rs ih =>
    have ih := ih (fun r hr => h r (List.mem_cons_of_mem _ hr))
    have hr := h r List.mem_cons_self
    rw [List.flatMap_cons, List.append_assoc]
    generalize rs.flatMap (· ++ ['\n']) = t at ih ⊢
    clear h
    induction r with
    | nil =>
      show lines ('\n' :: t) = _
      rw [lines, if_pos rfl, ih]
    | cons c r ihr =>
      have ihr := ihr (fun c hc => hr c (List.mem_cons_of_mem _ hc))
      rw [List.cons_append, lines, if_neg (hr c List.mem_cons_self), ihr]

/-! ### Numbers -/

theorem charVal_digit {b d : Nat} (hd : d < b) (hb : b ≤ 16) : charVal b (digitChar d) = some d := by
  have : ∀ d, d < 16 → "0123456789ABCDEF".toList.idxOf (digitChar d) = d := by decide
  unfold charVal
  rw [this d (by omega)]
  simp [hd]

theorem digits_lt {b : Nat} (hb : 2 ≤ b) (n : Nat) : ∀ d ∈ digits b n, d < b := by
  induction n using Nat.strongRecOn with
  | ind n ih =>
    unfold digits
    split
    · intro d hd; simp at hd; omega
    · intro d hd
      rcases List.mem_append.mp hd with h | h
      · exact ih (n / b) (Nat.div_lt_self (by omega) (by omega)) d h
      · simp at h; rw [h]; exact Nat.mod_lt _ (by omega)

theorem digits_value {b : Nat} (hb : 2 ≤ b) (n : Nat) : (digits b n).foldl (fun a d => a * b + d) 0 = n := by
  induction n using Nat.strongRecOn with
  | ind n ih =>
    unfold digits
    split
    · simp
    · rw [List.foldl_append, ih (n / b) (Nat.div_lt_self (by omega) (by omega))]
      simp only [List.foldl_cons, List.foldl_nil]
      exact Nat.div_add_mod' n b

theorem digits_ne (b n : Nat) : digits b n ≠ [] := by unfold digits; split <;> simp

theorem number_read {b : Nat} (hb : 2 ≤ b ∧ b ≤ 16) (ds : List Nat) (hd : ∀ d ∈ ds, d < b) (acc : Nat) (t : List Char)
    (ht : ∀ c, t.head? = some c → charVal b c = none) :
    number b acc (ds.map digitChar ++ t) = (ds.foldl (fun a d => a * b + d) acc, t) := by
  induction ds generalizing acc with
  | nil =>
    cases t with
    | nil => rfl
    | cons c t => simp only [List.map_nil, List.nil_append, number, ht c rfl, List.foldl_nil]
  | cons d ds ih =>
    simp only [List.map_cons, List.cons_append, number, charVal_digit (hd d List.mem_cons_self) hb.2, List.foldl_cons]
    exact ih (fun d h => hd d (List.mem_cons_of_mem _ h)) _

theorem charVal_blank : charVal 10 ' ' = none ∧ charVal 16 ' ' = none := by decide

theorem strip_blanks (k : Nat) (t : List Char) : strip (List.replicate k ' ' ++ t) = strip t := by
  induction k with
  | zero => rfl
  | succ k ih => rw [List.replicate_succ, List.cons_append]; unfold strip at *; simpa using ih

theorem digitChar_mem {d : Nat} (h : d < 16) : digitChar d ∈ "0123456789ABCDEF".toList := by
  have : ∀ d, d < 16 → digitChar d ∈ "0123456789ABCDEF".toList := by decide
  exact this d h

theorem digitChar_ne {d : Nat} (h : d < 16) {c : Char} (hc : c ∉ "0123456789ABCDEF".toList) : digitChar d ≠ c := by
  intro e; exact hc (e ▸ digitChar_mem h)

theorem strip_digit {d : Nat} (h : d < 16) (t : List Char) : strip (digitChar d :: t) = digitChar d :: t := by
  unfold strip
  have := digitChar_ne h (c := ' ') (by decide)
  simp [this]

/-- The number of a row is read, and what is after the blank. -/
theorem row_number (n : Nat) (t : List Char) : row (lineNo n ++ [' '] ++ t) = ⟨n, body t⟩ := by
  unfold row lineNo
  simp only [List.append_assoc]
  rw [strip_blanks]
  have hd := digits_lt (b := 10) (by omega) n
  have hv := digits_value (b := 10) (by omega) n
  have hs : strip ((digits 10 n).map digitChar ++ ([' '] ++ t)) = (digits 10 n).map digitChar ++ ([' '] ++ t) := by
    cases hx : digits 10 n with
    | nil => exact absurd hx (digits_ne _ _)
    | cons d ds =>
      rw [hx] at hd
      exact strip_digit (by have := hd d List.mem_cons_self; omega) _
  rw [hs, number_read (by omega) _ hd _ _ (by intro c hc; cases hc; exact charVal_blank.1), hv]
  rfl

/-- An address is read. -/
theorem number_address (n : Nat) (t : List Char) : number 16 0 (address n ++ (' ' :: t)) = (n, ' ' :: t) := by
  unfold address
  have h0 : List.replicate (8 - ((digits 16 n).map digitChar).length) '0' =
      (List.replicate (8 - ((digits 16 n).map digitChar).length) 0).map digitChar := by
    rw [List.map_replicate]; rfl
  simp only
  rw [h0, ← List.map_append, number_read (by omega) _ ?_ _ _ (by intro c hc; cases hc; exact charVal_blank.2)]
  · rw [List.foldl_append]
    have : ∀ k : Nat, (List.replicate k 0).foldl (fun a d => a * 16 + d) 0 = 0 := by
      intro k
      induction k with
      | zero => rfl
      | succ k ih => rw [List.replicate_succ]; simpa using ih
    rw [this, digits_value (by omega)]
  · intro d hd
    rcases List.mem_append.mp hd with h | h
    · have := List.eq_of_mem_replicate h; omega
    · exact digits_lt (by omega) n d h

/-- An address starts with a digit. -/
theorem address_head (n : Nat) (t : List Char) : ∃ d r, d < 16 ∧ address n ++ t = digitChar d :: r := by
  unfold address
  simp only
  generalize hk : 8 - ((digits 16 n).map digitChar).length = k
  cases k with
  | zero =>
    cases hx : digits 16 n with
    | nil => exact absurd hx (digits_ne _ _)
    | cons d ds =>
      have := digits_lt (b := 16) (by omega) n d (by rw [hx]; exact List.mem_cons_self)
      exact ⟨d, _, this, rfl⟩
  | succ k => exact ⟨0, _, by omega, by rw [List.replicate_succ]; rfl⟩

theorem body_address (n : Nat) (t : List Char) :
    body (address n ++ (' ' :: t)) = match ' ' :: t with
      | ' ' :: '<' :: 'g' :: 'a' :: 'p' :: '>' :: s => .gap n (strip s)
      | _ :: s => let i := items s; ending n i.1 i.2
      | [] => .code n [] false false [] := by
  have hn := number_address n t
  obtain ⟨d, r, h1, h2⟩ := address_head n (' ' :: t)
  rw [h2] at hn ⊢
  have hne := digitChar_ne h1 (c := ' ') (by decide)
  unfold body
  split
  · rename_i s hs; injection hs with a b; exact absurd a hne
  · rename_i hs; cases hs
  · rw [hn]; rfl

/-! ### Bytes -/

/-- How a byte is written. -/
def Item.text (i : Item) : List Char :=
  (match i.opened with | some true => ['('] | some false => ['['] | none => []) ++ [digitChar (i.byte / 16), digitChar (i.byte % 16)] ++
    match i.closed with | some true => [')'] | some false => [']'] | none => []

/-- What may follow the bytes. -/
def Stop (t : List Char) : Prop := ∀ c, t.head? = some c → c ∈ ['-', '<', ' ']

theorem charVal_stop {c : Char} (h : c ∈ ['-', '<', ' ']) : charVal 16 c = none := by
  have : ∀ c ∈ ['-', '<', ' '], charVal 16 c = none := by decide
  exact this c h

theorem bracket_none (a b : Char) {t : List Char} (h : ∀ c, t.head? = some c → c ≠ a ∧ c ≠ b) : bracket a b t = (none, t) := by
  cases t with
  | nil => rfl
  | cons c t =>
    obtain ⟨h1, h2⟩ := h c rfl
    simp only [bracket]
    rw [if_neg h1, if_neg h2]

/-- What may follow a byte: another, or what may follow all of them. -/
def Next (t : List Char) : Prop := ∀ c, t.head? = some c → c ∈ "([0123456789ABCDEF".toList ∨ c ∈ ['-', '<', ' ']

theorem item_read (i : Item) (hi : i.byte < 256) {t : List Char} (ht : Next t) : item (i.text ++ t) = some (i, t) := by
  obtain ⟨o, b, c⟩ := i
  simp only at hi
  have e1 := charVal_digit (b := 16) (d := b / 16) (by omega) (by omega)
  have e2 := charVal_digit (b := 16) (d := b % 16) (by omega) (by omega)
  have close : ∀ c : Option Bool, bracket ')' ']' ((match c with | some true => [')'] | some false => [']'] | none => []) ++ t) = (c, t) := by
    intro c
    rcases c with _ | _ | _
    · refine bracket_none _ _ ?_
      intro c hc
      rcases ht c hc with h | h
      · have : ∀ c ∈ "([0123456789ABCDEF".toList, c ≠ ')' ∧ c ≠ ']' := by decide
        exact this c h
      · have : ∀ c ∈ ['-', '<', ' '], c ≠ ')' ∧ c ≠ ']' := by decide
        exact this c h
    · rfl
    · rfl
  have op : bracket '(' '[' ((Item.mk o b c).text ++ t) =
      (o, digitChar (b / 16) :: digitChar (b % 16) :: ((match c with | some true => [')'] | some false => [']'] | none => []) ++ t)) := by
    unfold Item.text
    rcases o with _ | _ | _
    · refine bracket_none _ _ ?_
      intro c hc
      cases hc
      exact ⟨digitChar_ne (d := b / 16) (by omega) (by decide), digitChar_ne (d := b / 16) (by omega) (by decide)⟩
    · rfl
    · rfl
  unfold item
  rw [op]
  simp only [e1, e2]
  rw [close]
  simp only [Option.some.injEq, Prod.mk.injEq, Item.mk.injEq, true_and, and_true]
  omega

theorem item_stop {t : List Char} (ht : Stop t) : item t = none := by
  unfold item
  rw [bracket_none]
  · cases t with
    | nil => rfl
    | cons a t =>
      cases t with
      | nil => rfl
      | cons b t =>
        simp only
        rw [charVal_stop (ht a rfl)]
  · intro c hc
    have : ∀ c ∈ ['-', '<', ' '], c ≠ '(' ∧ c ≠ '[' := by decide
    exact this c (ht c hc)

theorem text_next (i : Item) (hi : i.byte < 256) (t : List Char) : Next (i.text ++ t) := by
  intro c hc
  refine .inl ?_
  unfold Item.text at hc
  rcases ho : i.opened with _ | _ | _ <;> rw [ho] at hc <;> simp only [List.nil_append, List.cons_append, List.head?_cons, Option.some.injEq] at hc
  · rw [← hc]
    have : ∀ d, d < 16 → digitChar d ∈ "([0123456789ABCDEF".toList := by decide
    exact this _ (by omega)
  · rw [← hc]; decide
  · rw [← hc]; decide

theorem itemsAt_read (its : List Item) (hi : ∀ i ∈ its, i.byte < 256) {t : List Char} (ht : Stop t) (k : Nat) (hk : its.length ≤ k) :
    itemsAt k (its.flatMap Item.text ++ t) = (its, t) := by
  induction its generalizing k with
  | nil =>
    cases k with
    | zero => rfl
    | succ k => simp only [List.flatMap_nil, List.nil_append, itemsAt, item_stop ht]
  | cons i its ih =>
    cases k with
    | zero => simp at hk
    | succ k =>
      have hn : Next (its.flatMap Item.text ++ t) := by
        cases its with
        | nil => intro c hc; exact .inr (ht c hc)
        | cons j js =>
          rw [List.flatMap_cons, List.append_assoc]
          exact text_next j (hi j (by simp)) _
      rw [List.flatMap_cons, List.append_assoc]
      unfold itemsAt
      rw [item_read i (hi i List.mem_cons_self) hn]
      simp only
      rw [ih (fun i h => hi i (List.mem_cons_of_mem _ h)) k (by simpa using hk)]

theorem text_length (i : Item) : 2 ≤ i.text.length := by unfold Item.text; simp; omega

theorem items_read (its : List Item) (hi : ∀ i ∈ its, i.byte < 256) {t : List Char} (ht : Stop t) :
    items (its.flatMap Item.text ++ t) = (its, t) := by
  refine itemsAt_read its hi ht _ ?_
  rw [List.length_append]
  have : its.length ≤ (its.flatMap Item.text).length := by
    clear hi
    induction its with
    | nil => simp
    | cons i its ih => have := text_length i; rw [List.flatMap_cons, List.length_append, List.length_cons]; omega
  omega

end Verif.Listing
