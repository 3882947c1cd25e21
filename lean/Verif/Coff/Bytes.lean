import Verif.Coff.Spec
import Verif.Elf.Bytes
import Mathlib.Tactic.Ring
/-
Names and numbers in the records of a COFF file.
-/
set_option linter.unusedSimpArgs false
namespace Verif.Coff
open Verif.Elf (Byte Name Num number slice field string le At le_length)

theorem takeWhile_all {l : List Byte} (h : ∀ b ∈ l, b ≠ 0) (m : List Byte) :
    (l ++ 0 :: m).takeWhile (· ≠ 0) = l := by
  induction l with
  | nil => simp
  | cons a l ih =>
    have h1 : a ≠ 0 := h a (by simp)
    simp only [List.cons_append]
    rw [List.takeWhile_cons_of_pos (by simpa using h1), ih fun b hb => h b (by simp [hb])]

theorem takeWhile_self {l : List Byte} (h : ∀ b ∈ l, b ≠ 0) : l.takeWhile (· ≠ 0) = l := by
  induction l with
  | nil => rfl
  | cons a l ih =>
    have h1 : a ≠ 0 := h a (by simp)
    rw [List.takeWhile_cons_of_pos (by simpa using h1), ih fun b hb => h b (by simp [hb])]

theorem takeWhile_zeros {l : List Byte} (h : ∀ b ∈ l, b ≠ 0) (n : Nat) :
    (l ++ List.replicate n 0).takeWhile (· ≠ 0) = l := by
  rcases n with _ | n
  · simpa using takeWhile_self h
  · rw [List.replicate_succ]; exact takeWhile_all h _

theorem strncpy_eq {n : Nat} {s : Name} (h : s.length ≤ n) : strncpy n s = s ++ List.replicate (n - s.length) 0 := by
  unfold strncpy
  rw [List.take_append, List.take_of_length_le h, List.take_replicate, Nat.min_eq_left (by omega)]

theorem strncpy_length (n : Nat) (s : Name) : (strncpy n s).length = n := by simp [strncpy]

theorem shortName_strncpy {n : Nat} {s : Name} (h : s.length ≤ n) (hs : ∀ b ∈ s, b ≠ 0) (m : Nat) :
    shortName (strncpy n s ++ List.replicate m 0) = s := by
  rw [strncpy_eq h, List.append_assoc, List.replicate_append_replicate]
  exact takeWhile_zeros hs _

theorem shortName_strncpy' {n : Nat} {s : Name} (h : s.length ≤ n) (hs : ∀ b ∈ s, b ≠ 0) : shortName (strncpy n s) = s := by
  have := shortName_strncpy h hs 0
  simpa using this

/-- A string with its zero at a position. -/
theorem string_read {f : List Byte} {pos : Nat} {s : Name} (h : At f pos (s ++ [0])) (hs : ∀ b ∈ s, b ≠ 0) :
    string f pos = some s := by
  obtain ⟨a, b, rfl, rfl⟩ := h
  unfold Elf.string
  have e : (a ++ (s ++ [0]) ++ b).drop a.length = s ++ 0 :: b := by simp [List.append_assoc]
  rw [e, if_pos (by simp), takeWhile_all hs]

/-! ### Decimal numbers -/

theorem digit_toNat {d : Nat} (h : d < 10) : (BitVec.ofNat 8 (48 + d)).toNat = 48 + d := by
  simp only [BitVec.toNat_ofNat]; omega

theorem digits_ne (fuel n : Nat) : digits (fuel + 1) n ≠ [] := by
  unfold digits; split <;> simp

theorem digits_are (fuel n : Nat) : ∀ b ∈ digits fuel n, ∃ d < 10, b = BitVec.ofNat 8 (48 + d) := by
  induction fuel generalizing n with
  | zero => intro b hb; simp [digits] at hb
  | succ fuel ih =>
    intro b hb
    unfold digits at hb
    split at hb
    · rename_i h
      simp only [List.mem_singleton] at hb
      exact ⟨n, h, hb⟩
    · simp only [List.mem_append, List.mem_singleton] at hb
      rcases hb with hb | hb
      · exact ih _ b hb
      · exact ⟨n % 10, by omega, hb⟩

theorem digits_length (fuel n m : Nat) (h : n < 10 ^ m) (hm : 0 < m) : (digits fuel n).length ≤ m := by
  induction fuel generalizing n m with
  | zero => simp [digits]
  | succ fuel ih =>
    unfold digits
    split
    · simp; omega
    · rename_i h10
      rcases m with _ | m
      · omega
      · rcases m with _ | m
        · simp at h; omega
        · have := ih (n / 10) (m + 1) (by rw [Nat.div_lt_iff_lt_mul (by omega)]; rw [Nat.pow_succ] at h; omega) (by omega)
          simp only [List.length_append, List.length_singleton]; omega

theorem digits_value (fuel n : Nat) (h : n < 10 ^ fuel) :
    (digits fuel n).foldl (fun a b => a * 10 + (b.toNat - 48)) 0 = n := by
  induction fuel generalizing n with
  | zero => simp at h; simp [digits, h]
  | succ fuel ih =>
    unfold digits
    split
    · rename_i h10
      simp only [List.foldl_cons, List.foldl_nil, digit_toNat h10]; omega
    · rw [List.foldl_append, ih (n / 10) (by rw [Nat.div_lt_iff_lt_mul (by omega)]; rw [Nat.pow_succ] at h; omega)]
      simp only [List.foldl_cons, List.foldl_nil, digit_toNat (Nat.mod_lt n (by omega : 10 > 0))]
      omega

theorem numeral_digits (n : Nat) (h : n < 10 ^ 20) : numeral (digits 20 n) = some n := by
  unfold numeral
  rw [if_pos, digits_value 20 n h]
  refine ⟨digits_ne 19 n, ?_⟩
  rw [List.all_eq_true]
  intro b hb
  obtain ⟨d, hd, rfl⟩ := digits_are _ _ b hb
  rw [digit_toNat hd]
  simp; omega

theorem digits_nonzero (fuel n : Nat) : ∀ b ∈ digits fuel n, b ≠ 0 := by
  intro b hb h
  obtain ⟨d, hd, rfl⟩ := digits_are _ _ b hb
  have := congrArg BitVec.toNat h
  rw [digit_toNat hd] at this
  simp at this

/-- The name of a section in its header is read back. -/
theorem sectionName_read {pe : Bool} {strs : List Byte} {name : Name} {k : Nat} (hn : ∀ b ∈ name, b ≠ 0) (hne : name ≠ [])
    (hshort : pe = false → name.length ≤ 8) (hslash : pe = true → name.length ≤ 8 → name.head? ≠ some 0x2f#8)
    (hk : k < 10 ^ 7) (hs : pe = true → 8 < name.length → At strs k (name ++ [0])) :
    sectionName pe strs (sectName name k) = some name := by
  unfold sectName
  split
  · rename_i hlong
    have hpe : pe = true := by
      rcases pe with _ | _
      · have := hshort rfl; omega
      · rfl
    have hl : (digits 20 k).length ≤ 7 := digits_length 20 k 7 hk (by omega)
    have e : strncpy 8 (0x2f#8 :: digits 20 k) = 0x2f#8 :: strncpy 7 (digits 20 k) := by
      rw [strncpy_eq (by simp; omega), strncpy_eq hl]
      simp only [List.length_cons, List.cons_append]
      congr 3
      omega
    rw [e]
    unfold sectionName
    rw [if_pos ⟨hpe, rfl⟩, List.tail_cons, shortName_strncpy' hl (digits_nonzero _ _), numeral_digits k (by omega), Option.bind_some,
      string_read (hs hpe hlong) hn]
  · rename_i hlong
    have hlen : name.length ≤ 8 := by omega
    unfold sectionName
    rw [if_neg, shortName_strncpy' hlen hn]
    rintro ⟨hpe, hh⟩
    rw [strncpy_eq hlen] at hh
    rcases name with _ | ⟨a, l⟩
    · exact hne rfl
    · exact hslash hpe hlen hh

theorem field_append_left {l m : List Byte} {p n : Nat} (h : p + n ≤ l.length) : field (l ++ m) p n = field l p n := by
  unfold Elf.field Elf.slice
  rw [if_pos (by simp; omega), if_pos h]
  simp only [Option.map_some, Option.some.injEq]
  congr 1
  rw [List.drop_append_of_le_length (by omega), List.take_append_of_le_length (by simp; omega)]

/-- The name of a symbol in its entry is read back. -/
theorem nameIn_read {strs : List Byte} {name : Name} {k : Nat} (hn : ∀ b ∈ name, b ≠ 0) (hne : name ≠ [])
    (hk : k < 2 ^ 32) (hs : 8 < name.length → At strs k (name ++ [0])) :
    nameIn strs (nameBytes name k) = some name := by
  unfold nameBytes
  split
  · rename_i hlong
    unfold nameIn
    have e : (le 4 0 ++ le 4 k).take 4 = [0, 0, 0, 0] := by
      rw [List.take_append_of_le_length (by rw [le_length])]; rfl
    rw [if_pos e]
    have a : At (le 4 0 ++ le 4 k) 4 (le 4 k) := ⟨le 4 0, [], by simp, rfl⟩
    rw [a.field (by simpa using hk), Option.bind_some, string_read (hs hlong) hn]
  · rename_i hlong
    have hlen : name.length ≤ 8 := by omega
    unfold nameIn
    rw [if_neg, shortName_strncpy' hlen hn]
    intro h
    rw [strncpy_eq hlen] at h
    rcases name with _ | ⟨a, l⟩
    · exact hne rfl
    · simp only [List.cons_append, List.take_succ_cons, List.cons.injEq] at h
      exact hn a (by simp) h.1

/-- The name of the source file. -/
theorem fileName_read {strs : List Byte} {name : Name} {k : Nat} (hn : ∀ b ∈ name, b ≠ 0) (hne : name ≠ [])
    (hk : k < 2 ^ 32) (hs : 14 < name.length → At strs k (name ++ [0])) :
    nameIn strs (if 14 < name.length then le 4 0 ++ le 4 k ++ List.replicate 10 0 else strncpy 14 name ++ List.replicate 4 0) =
      some name := by
  split
  · rename_i hlong
    unfold nameIn
    have e : (le 4 0 ++ le 4 k ++ List.replicate 10 0).take 4 = [0, 0, 0, 0] := by
      rw [List.append_assoc, List.take_append_of_le_length (by rw [le_length])]; rfl
    rw [if_pos e]
    have a : At (le 4 0 ++ le 4 k ++ List.replicate 10 0) 4 (le 4 k) := ⟨le 4 0, List.replicate 10 0, by simp, rfl⟩
    rw [a.field (by simpa using hk), Option.bind_some, string_read (hs hlong) hn]
  · rename_i hlong
    have hlen : name.length ≤ 14 := by omega
    unfold nameIn
    rw [if_neg, shortName_strncpy hlen hn]
    intro h
    rw [strncpy_eq hlen] at h
    rcases name with _ | ⟨a, l⟩
    · exact hne rfl
    · simp only [List.cons_append, List.append_assoc, List.take_succ_cons, List.cons.injEq] at h
      exact hn a (by simp) h.1

/-! ### Flags -/

theorem alignBits_pow (fuel k : Nat) (h : k < fuel) : alignBits fuel (2 ^ k) = k + 1 := by
  induction fuel generalizing k with
  | zero => omega
  | succ fuel ih =>
    unfold alignBits
    rw [if_neg (by have := Nat.two_pow_pos k; omega)]
    rcases k with _ | k
    · rcases fuel with _ | fuel <;> simp [alignBits]
    · rw [show 2 ^ (k + 1) / 2 = 2 ^ k by rw [Nat.pow_succ]; omega, ih k (by omega)]; omega

theorem alignBits_zero (fuel : Nat) : alignBits fuel 0 = 0 := by
  rcases fuel with _ | fuel <;> simp [alignBits]

/-- What the flags in the header say. -/
theorem headFlags_read {o : Obj} {s : Sect} (h : SectOk o s) (n : Nat) :
    headFlags o s n < 2 ^ 32 ∧ headFlags o s n % 2 ^ 20 + headFlags o s n / 2 ^ 25 * 2 ^ 25 = s.flags ∧
      alignment (headFlags o s n) = s.align ∧
      (headFlags o s n / 2 ^ 24 % 2 = 1 ↔ 65536 ≤ n ∧ o.format.win = true) := by
  have key : ∀ a, a ≤ 14 → alignBits 14 (min s.align 8192) = a →
      headFlags o s n = s.flags + a * 2 ^ 20 + if 65536 ≤ n ∧ o.format.win = true then 2 ^ 24 else 0 := by
    intro a ha e
    unfold headFlags
    simp only [e]
    have h1 := h.flags.2
    have e1 : s.flags % 2 ^ 20 + s.flags / 2 ^ 24 * 2 ^ 24 = s.flags := by omega
    rw [e1]
    by_cases c : 65536 ≤ n ∧ o.format.win = true
    · rw [if_pos c, if_pos c, if_neg (by omega)]
    · rw [if_neg c, if_neg c, Nat.add_zero]
  have fin : ∀ a, a ≤ 14 → alignBits 14 (min s.align 8192) = a → (if a = 0 then 0 else 2 ^ (a - 1)) = s.align →
      headFlags o s n < 2 ^ 32 ∧ headFlags o s n % 2 ^ 20 + headFlags o s n / 2 ^ 25 * 2 ^ 25 = s.flags ∧
      alignment (headFlags o s n) = s.align ∧
      (headFlags o s n / 2 ^ 24 % 2 = 1 ↔ 65536 ≤ n ∧ o.format.win = true) := by
    intro a ha e ea
    have k := key a ha e
    have h1 := h.flags.1
    have h2 := h.flags.2
    by_cases c : 65536 ≤ n ∧ o.format.win = true
    · rw [if_pos c] at k
      have e3 : headFlags o s n / 2 ^ 20 % 16 = a := by omega
      refine ⟨by omega, by omega, ?_, ?_⟩
      · unfold alignment; rw [e3]; exact ea
      · simp only [c, and_self, iff_true]; omega
    · rw [if_neg c] at k
      have e3 : headFlags o s n / 2 ^ 20 % 16 = a := by omega
      refine ⟨by omega, by omega, ?_, ?_⟩
      · unfold alignment; rw [e3]; exact ea
      · simp only [c, iff_false]; omega
  rcases h.align with ha | ⟨k, hk, ha⟩
  · exact fin 0 (by omega) (by rw [ha]; exact alignBits_zero _) (by rw [ha]; rfl)
  · have hle : 2 ^ k ≤ 8192 := by
      have := Nat.pow_le_pow_right (show 0 < 2 by omega) hk
      simpa using this
    refine fin (k + 1) (by omega) ?_ (by rw [ha]; rfl)
    rw [ha, Nat.min_eq_left hle, alignBits_pow 14 k (by omega)]

end Verif.Coff
