import Verif.Cpp.Spec
namespace Verif.Cpp

theorem wordsFrom_blank (a b cur : Str) : wordsFrom cur (a ++ ' ' :: b) = wordsFrom cur a ++ wordsFrom [] b := by
  induction a generalizing cur with
  | nil =>
    simp only [List.nil_append, wordsFrom, true_or, if_true]
    split <;> rfl
  | cons c a ih =>
    simp only [List.cons_append, wordsFrom]
    split
    · split
      · exact ih []
      · rw [ih []]; rfl
    · exact ih _

theorem words_blank (a b : Str) : words (a ++ ' ' :: b) = words a ++ words b := wordsFrom_blank a b []

theorem wordsFrom_plain (w cur : Str) (h : ∀ c ∈ w, c ∉ special) : wordsFrom cur w = if cur ++ w = [] then [] else [cur ++ w] := by
  induction w generalizing cur with
  | nil => simp [wordsFrom]
  | cons c w ih =>
    have hc := h c (by simp)
    have : ¬ (c = ' ' ∨ c = '\t') := by
      rintro (rfl | rfl)
      · exact hc (by decide)
      · exact hc (by decide)
    rw [wordsFrom, if_neg this, ih _ (fun d hd => h d (by simp [hd]))]
    simp

theorem words_plain (w : Str) (h : Plain w) : words w = [w] := by
  unfold words
  rw [wordsFrom_plain w [] h.2, List.nil_append, if_neg h.1]

theorem partsFrom_one (s cur : Str) (h : ∀ c ∈ s, c ≠ ';' ∧ c ≠ '\n') : partsFrom cur s = [cur ++ s] := by
  induction s generalizing cur with
  | nil => simp [partsFrom]
  | cons c s ih =>
    have hc := h c (by simp)
    rw [partsFrom, if_neg (by simp [hc.1, hc.2]), ih _ (fun d hd => h d (by simp [hd]))]
    simp

/-- The text of the arguments of a list. -/
def argsText (l : List Arg) : Str := l.flatMap (fun a => ' ' :: a.op ++ ' ' :: a.param)
def extraText : Option Str → Str
  | none => []
  | some e => ' ' :: e
def full (prog : Str) (args : List Arg) (extra : Option Str) (file : Str) : Str :=
  prog ++ argsText args ++ extraText extra ++ " -x assembler-with-cpp ".toList ++ file

/-- What a buffer of a limited size is: the text, or nothing once it has been too long. -/
def cut (n : Nat) (s : Str) : Option Str := if s.length < n then some s else none

theorem append_cut (b s : Str) : append (cut size b) s = cut size (b ++ s) := by
  unfold append cut
  by_cases h : b.length < size
  · rw [if_pos h]
    simp only [List.length_append]
    by_cases h2 : b.length + s.length < size
    · rw [if_neg (by omega), if_pos h2]
    · rw [if_pos (by omega), if_neg h2]
  · rw [if_neg h, if_neg (by simp only [List.length_append]; omega)]

theorem appendArgs_cut (l : List Arg) (b : Str) : appendArgs (cut size b) l = cut size (b ++ argsText l) := by
  induction l generalizing b with
  | nil => simp [appendArgs, argsText]
  | cons a l ih =>
    rw [appendArgs, append_cut, append_cut, append_cut, append_cut, ih]
    simp [argsText]

theorem build_cut (prog : Str) (hp : prog.length < size) (args : List Arg) (extra : Option Str) (file : Str) :
    build prog args extra file = cut size (full prog args extra file) := by
  have h0 : some prog = cut size prog := by rw [cut, if_pos hp]
  unfold build
  rw [h0, appendArgs_cut]
  have : appendExtra (cut size (prog ++ argsText args)) extra = cut size (prog ++ argsText args ++ extraText extra) := by
    cases extra with
    | none => simp [appendExtra, extraText]
    | some e => simp [appendExtra, append_cut, extraText]
  rw [this, append_cut, append_cut]
  rfl

theorem argsOf_eq (dirs : List Str) (rs : List Req) : argsOf dirs rs = dirs.map (fun d => ⟨"-I".toList, d⟩) ++ rs.map Req.arg := by
  have h1 : ∀ (rs : List Req) (l : List Arg), rs.foldl (fun l r => l ++ [r.arg]) l = l ++ rs.map Req.arg := by
    intro rs
    induction rs with
    | nil => simp
    | cons r rs ih => intro l; simp [ih]
  have h2 : ∀ (ds : List Str) (l : List Arg), ds.foldl (fun l d => l ++ [⟨"-I".toList, d⟩]) l = l ++ ds.map (fun d => ⟨"-I".toList, d⟩) := by
    intro ds
    induction ds with
    | nil => simp
    | cons r rs ih => intro l; rw [List.foldl_cons, ih, List.map_cons, List.append_assoc]; rfl
  unfold argsOf
  rw [h1, h2, List.nil_append]

theorem words_args (l : List Arg) (h : ∀ a ∈ l, Plain a.op ∧ Plain a.param) (p s : Str) :
    words (p ++ argsText l ++ ' ' :: s) = words p ++ l.flatMap (fun a => [a.op, a.param]) ++ words s := by
  induction l generalizing p with
  | nil => simp [argsText, words_blank]
  | cons a l ih =>
    have e : p ++ argsText (a :: l) ++ ' ' :: s = p ++ ' ' :: (a.op ++ ' ' :: (a.param ++ argsText l ++ ' ' :: s)) := by simp [argsText]
    rw [e, words_blank, words_blank, ih (fun b hb => h b (by simp [hb])), words_plain _ (h a (by simp)).1, words_plain _ (h a (by simp)).2]
    simp

theorem mem_argsText (l : List Arg) (c : Char) (h : c ∈ argsText l) : c = ' ' ∨ ∃ a ∈ l, c ∈ a.op ∨ c ∈ a.param := by
  unfold argsText at h
  rw [List.mem_flatMap] at h
  obtain ⟨a, ha, hc⟩ := h
  simp only [List.cons_append, List.mem_cons, List.mem_append] at hc
  rcases hc with h | h | h | h
  · exact .inl h
  · exact .inr ⟨a, ha, .inl h⟩
  · exact .inl h
  · exact .inr ⟨a, ha, .inr h⟩

theorem not_sep {s : Str} (h : Plain s) {c : Char} (hc : c ∈ s) : c ≠ ';' ∧ c ≠ '\n' :=
  ⟨fun e => h.2 c hc (by rw [e]; decide), fun e => h.2 c hc (by rw [e]; decide)⟩

theorem argsText_cons (a : Arg) (l : List Arg) : argsText (a :: l) = (' ' :: a.op ++ ' ' :: a.param) ++ argsText l := rfl

theorem argsText_append (a b : List Arg) : argsText (a ++ b) = argsText a ++ argsText b := List.flatMap_append ..

theorem room_append (a b : List Str) : room (a ++ b) = room a + room b := by
  induction a with
  | nil => simp [room]
  | cons w a ih => rw [List.cons_append, room, room, ih]; omega

theorem room_two (a b : Str) : room [a, b] = 2 + a.length + b.length := by
  simp only [room]
  omega

theorem argsText_length (a : Arg) (l : List Arg) : (argsText (a :: l)).length = 2 + a.op.length + a.param.length + (argsText l).length := by
  rw [argsText_cons]
  simp only [List.length_append, List.length_cons, List.cons_append]
  omega

theorem plain_I : Plain "-I".toList := ⟨by decide, by decide⟩
theorem plain_include : Plain "-include".toList := ⟨by decide, by decide⟩
theorem plain_D : Plain "-D".toList := ⟨by decide, by decide⟩
theorem plain_U : Plain "-U".toList := ⟨by decide, by decide⟩

/-! ### Dependencies -/

theorem skipTarget_colon (t s : Str) (h : ':' ∉ t) : skipTarget (t ++ ':' :: s) = some s := by
  induction t with
  | nil => simp [skipTarget]
  | cons c t ih =>
    rw [List.cons_append, skipTarget, if_neg (fun e => h (by simp [e])), ih (fun e => h (by simp [e]))]

theorem skipSource_blank (t s : Str) (h : ' ' ∉ t) : skipSource (t ++ ' ' :: s) = some s := by
  induction t with
  | nil => simp [skipSource]
  | cons c t ih =>
    rw [List.cons_append, skipSource, if_neg (fun e => h (by simp [e])), ih (fun e => h (by simp [e]))]

theorem skipSource_none (t : Str) (h : ' ' ∉ t) : skipSource t = none := by
  induction t with
  | nil => rfl
  | cons c t ih => rw [skipSource, if_neg (fun e => h (by simp [e])), ih (fun e => h (by simp [e]))]

theorem readName_chars (max : Nat) (n acc s : Str) (h : ∀ c ∈ n, c ≠ ' ' ∧ ¬ c < ' ') (hl : acc.length + n.length ≤ max) :
    readName max acc (n ++ s) = readName max (acc ++ n) s := by
  induction n generalizing acc with
  | nil => simp
  | cons c n ih =>
    have hc := h c (by simp)
    simp only [List.length_cons] at hl
    rw [List.cons_append, readName, if_pos (by omega), if_neg hc.1, if_neg hc.2,
      ih (acc ++ [c]) (fun d hd => h d (by simp [hd])) (by simp only [List.length_append, List.length_singleton]; omega)]
    simp

end Verif.Cpp
