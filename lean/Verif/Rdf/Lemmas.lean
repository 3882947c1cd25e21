import Verif.Rdf.Spec
import Verif.Elf.Bytes
import Mathlib.Tactic.Tauto
namespace Verif.Rdf
open Verif.Elf (Byte Name number Num le le_length number_le)
open Verif.Coff (getUint)

/-! ### Bytes -/

theorem bytes_append (a b : List Byte) {n : Nat} (h : a.length = n) : bytes n (a ++ b) = some (a, b) := by
  subst h
  unfold bytes
  rw [if_pos (by simp), List.take_left, List.drop_left]

theorem num_le (n v : Nat) (b : List Byte) (h : v < 256 ^ n) : num n (le n v ++ b) = some (v, b) := by
  unfold num
  rw [bytes_append _ _ (le_length n v), Option.map_some, number_le, Nat.mod_eq_of_lt h]

theorem num_le' (n v : Nat) (h : v < 256 ^ n) : num n (le n v) = some (v, []) := by
  have := num_le n v [] h
  rwa [List.append_nil] at this

theorem string_zero {n : Name} (h : ∀ b ∈ n, b ≠ 0) : string (n ++ [0]) = some n := by
  unfold string
  rw [if_pos]
  · simp
  · refine ⟨by simp, ?_⟩
    rw [List.dropLast_concat]
    exact fun hm => h 0 hm rfl

/-! ### Records -/

/-- A list of bytes is the beginning of a header with these records. -/
def Pre (l : List Byte) (rs : List Record) : Prop :=
  ∀ rest rs', (∀ fuel, rest.length ≤ fuel → records fuel rest = some rs') → ∀ fuel, (l ++ rest).length ≤ fuel → records fuel (l ++ rest) = some (rs ++ rs')

theorem Pre.nil : Pre [] [] := fun _ _ h => h

theorem Pre.append {a b : List Byte} {ra rb : List Record} (ha : Pre a ra) (hb : Pre b rb) : Pre (a ++ b) (ra ++ rb) := by
  intro rest rs' h
  rw [List.append_assoc, List.append_assoc]
  exact ha _ _ (hb _ _ h)

theorem Pre.whole {l : List Byte} {rs : List Record} (h : Pre l rs) : records l.length l = some rs := by
  have := h [] [] (fun f _ => by cases f <;> rfl) l.length (by simp)
  simpa using this

theorem Pre.one {t n : Nat} {body : List Byte} {r : Record} (ht : t < 256) (hn : n < 256) (hb : body.length = n) (h : record t body = some r) :
    Pre (le 1 t ++ (le 1 n ++ body)) [r] := by
  intro rest rs' hr fuel hf
  have e : le 1 t ++ (le 1 n ++ body) ++ rest = le 1 t ++ (le 1 n ++ (body ++ rest)) := by simp only [List.append_assoc]
  rw [e] at hf ⊢
  simp only [List.length_append, le_length] at hf
  obtain ⟨fuel, rfl⟩ : ∃ f, fuel = f + 1 := ⟨fuel - 1, by omega⟩
  have hne : ∃ b l, le 1 t ++ (le 1 n ++ (body ++ rest)) = b :: l := ⟨_, _, rfl⟩
  have hu : records (fuel + 1) (le 1 t ++ (le 1 n ++ (body ++ rest))) = (do
    let (type, l) ← num 1 (le 1 t ++ (le 1 n ++ (body ++ rest)))
    let (len, l) ← num 1 l
    let (body, l) ← bytes len l
    let r ← record type body
    let rs ← records fuel l
    some (r :: rs)) := by
    obtain ⟨b, l, e⟩ := hne
    rw [e]
    rfl
  rw [hu, num_le 1 t _ (by omega)]
  simp only [Option.bind_eq_bind, Option.bind_some]
  rw [num_le 1 n _ (by omega)]
  simp only [Option.bind_some]
  rw [bytes_append _ _ hb]
  simp only [Option.bind_some, h]
  rw [hr fuel (by omega)]
  rfl

theorem Pre.flatMap {α : Type} (l : List α) (f : α → List Byte) (g : α → Record) (h : ∀ a ∈ l, Pre (f a) [g a]) : Pre (l.flatMap f) (l.map g) := by
  induction l with
  | nil => exact Pre.nil
  | cons a l ih =>
    rw [List.flatMap_cons, List.map_cons]
    exact (h a (by simp)).append (ih fun b hb => h b (by simp [hb]))

theorem name_record {t : Nat} {n : Name} {g : Name → Record} (ht : t < 256) (hn : n.length ≤ 127) (hz : ∀ b ∈ n, b ≠ 0)
    (h : ∀ l, record t l = (string l).map g) : Pre (nameBytes t n) [g n] := by
  unfold nameBytes
  have e : storedName n = n := by unfold storedName; exact List.take_of_length_le hn
  rw [e]
  refine Pre.one ht (by omega) (by simp) ?_
  rw [h, string_zero hz]
  rfl

theorem reloc_record {j : Nat} {r : Reloc} (hj : j < 64) (ha : r.addr < 2 ^ 32) (hs : r.size < 256) (hr : r.refseg < 2 ^ 16) :
    Pre (relocBytes j r) [wantReloc j r] := by
  have key : ∀ t x : Nat, t = 1 ∨ t = 6 → x < 2 → Pre (le 1 t ++ (le 1 8 ++ (le 1 (j + 64 * x) ++ (le 4 r.addr ++ (le 1 r.size ++ le 2 r.refseg)))))
      [.reloc (decide (t = 6)) j (decide (x = 1)) r.addr r.size r.refseg] := by
    intro t x ht hx
    refine Pre.one (by omega) (by omega) (by simp [le_length]) ?_
    unfold record
    rw [if_pos ht, num_le 1 _ _ (by omega)]
    simp only [Option.bind_eq_bind, Option.bind_some]
    rw [num_le 4 _ _ (by omega)]
    simp only [Option.bind_some]
    rw [num_le 1 _ _ (by omega)]
    simp only [Option.bind_some]
    rw [num_le' 2 _ (by omega)]
    have e1 : (j + 64 * x) % 64 = j := by omega
    have e2 : ((j + 64 * x) / 64 % 2 = 1) = (x = 1) := by apply propext; omega
    simp only [Option.bind_some, guard, if_true, e1, e2]
    rfl
  unfold relocBytes wantReloc
  rcases hty : r.type with _ | _ | _
  · exact key 1 0 (Or.inl rfl) (by omega)
  · exact key 1 1 (Or.inl rfl) (by omega)
  · exact key 6 0 (Or.inr rfl) (by omega)

theorem relocs_records {ss : List Sect} (hs : ∀ s ∈ ss, SectOk s) (j : Nat) (hj : j + ss.length ≤ 64) :
    Pre (relocsBytes j ss) ((ss.zipIdx j).flatMap fun p => if p.1.kept then p.1.relocs.map (wantReloc p.2) else []) := by
  induction ss generalizing j with
  | nil => exact Pre.nil
  | cons s ss ih =>
    rw [List.length_cons] at hj
    rw [List.zipIdx_cons, List.flatMap_cons]
    unfold relocsBytes
    refine Pre.append ?_ (ih (fun x hx => hs x (by simp [hx])) (j + 1) (by omega))
    have e : s.skipped = !s.kept := by
      unfold Sect.skipped Sect.kept
      by_cases h1 : s.type = 0 <;> by_cases h2 : s.length = 0 <;> simp [h1, h2]
    rw [e]
    cases hk : s.kept
    · exact Pre.nil
    · refine Pre.flatMap _ _ _ fun r hr => ?_
      obtain ⟨h1, h2, h3⟩ := (hs s (by simp)).reloc r hr
      exact reloc_record (by omega) h1 h2 h3

/-! ### Flags -/

/-- The number for flags. -/
def flagsOf (d p e i f : Bool) : Nat :=
  (if d then 1 else 0) + (if p then 2 else 0) + (if e then 4 else 0) + (if i then 8 else 0) + if f then 16 else 0

theorem foldl_glob {s : Sym} (hg : s.glob = true) (hx : s.ext = false) (ws : List Word) (d p e : Bool) :
    ws.foldl (applyWord s) (flagsOf d p e false false) =
      flagsOf (d || decide (.data ∈ ws)) (p || decide (.proc ∈ ws)) (e || decide (.exp ∈ ws)) false false := by
  induction ws generalizing d p e with
  | nil => simp
  | cons w ws ih =>
    rw [List.foldl_cons]
    cases w
    · have : applyWord s (flagsOf d p e false false) .data = flagsOf true p e false false := by
        unfold applyWord; rw [hg, hx]; cases d <;> cases p <;> cases e <;> rfl
      rw [this, ih]; simp
    · have : applyWord s (flagsOf d p e false false) .proc = flagsOf d true e false false := by
        unfold applyWord; rw [hg, hx]; cases d <;> cases p <;> cases e <;> rfl
      rw [this, ih]; simp
    · have : applyWord s (flagsOf d p e false false) .imp = flagsOf d p e false false := by
        unfold applyWord; rw [hx]; rfl
      rw [this, ih]; simp
    · have : applyWord s (flagsOf d p e false false) .exp = flagsOf d p true false false := by
        unfold applyWord; rw [hg]; cases d <;> cases p <;> cases e <;> rfl
      rw [this, ih]; simp
    · have : applyWord s (flagsOf d p e false false) .far = flagsOf d p e false false := by
        unfold applyWord; rw [hx]; rfl
      rw [this, ih]; simp
    · have : applyWord s (flagsOf d p e false false) .near = flagsOf d p e false false := by
        unfold applyWord; rw [hx]; rfl
      rw [this, ih]; simp

/-- What `lastFar` is if there was one before. -/
def farFrom (f : Bool) (ws : List Word) : Bool := if .far ∈ ws ∨ .near ∈ ws then lastFar ws else f

theorem foldl_ext {s : Sym} (hg : s.glob = false) (hx : s.ext = true) (ws : List Word) (d p i f : Bool) :
    ws.foldl (applyWord s) (flagsOf d p false i f) =
      flagsOf (d || decide (.data ∈ ws)) (p || decide (.proc ∈ ws)) false (i || decide (.imp ∈ ws)) (farFrom f ws) := by
  induction ws generalizing d p i f with
  | nil => simp [farFrom]
  | cons w ws ih =>
    rw [List.foldl_cons]
    cases w
    · have : applyWord s (flagsOf d p false i f) .data = flagsOf true p false i f := by
        unfold applyWord; rw [hx]; cases d <;> cases p <;> cases i <;> cases f <;> cases s.glob <;> rfl
      rw [this, ih]
      by_cases h : Word.far ∈ ws ∨ Word.near ∈ ws <;> simp [farFrom, lastFar, h]
    · have : applyWord s (flagsOf d p false i f) .proc = flagsOf d true false i f := by
        unfold applyWord; rw [hx]; cases d <;> cases p <;> cases i <;> cases f <;> cases s.glob <;> rfl
      rw [this, ih]
      by_cases h : Word.far ∈ ws ∨ Word.near ∈ ws <;> simp [farFrom, lastFar, h]
    · have : applyWord s (flagsOf d p false i f) .imp = flagsOf d p false true f := by
        unfold applyWord; rw [hx]; cases d <;> cases p <;> cases i <;> cases f <;> rfl
      rw [this, ih]
      by_cases h : Word.far ∈ ws ∨ Word.near ∈ ws <;> simp [farFrom, lastFar, h]
    · have : applyWord s (flagsOf d p false i f) .exp = flagsOf d p false i f := by
        unfold applyWord; rw [hg]; rfl
      rw [this, ih]
      by_cases h : Word.far ∈ ws ∨ Word.near ∈ ws <;> simp [farFrom, lastFar, h]
    · have : applyWord s (flagsOf d p false i f) .far = flagsOf d p false i true := by
        unfold applyWord; rw [hx]; cases d <;> cases p <;> cases i <;> cases f <;> rfl
      rw [this, ih]
      by_cases h : Word.far ∈ ws ∨ Word.near ∈ ws <;> simp [farFrom, lastFar, h]
    · have : applyWord s (flagsOf d p false i f) .near = flagsOf d p false i false := by
        unfold applyWord; rw [hx]; cases d <;> cases p <;> cases i <;> cases f <;> rfl
      rw [this, ih]
      by_cases h : Word.far ∈ ws ∨ Word.near ∈ ws <;> simp [farFrom, lastFar, h]

theorem flags_glob {s : Sym} (hg : s.glob = true) (hx : s.ext = false) : parseFlags s = s.exportFlags := by
  have := foldl_glob hg hx s.words false false false
  unfold parseFlags
  show s.words.foldl (applyWord s) (flagsOf false false false false false) = _
  rw [this]
  simp [flagsOf, Sym.exportFlags]

theorem lastFar_none {ws : List Word} (h : ¬ (.far ∈ ws ∨ .near ∈ ws)) : lastFar ws = false := by
  induction ws with
  | nil => rfl
  | cons w ws ih =>
    simp only [List.mem_cons] at h
    unfold lastFar
    rw [if_neg (by tauto)]
    have : w ≠ .far := fun e => h (by simp [e])
    simp [this]

theorem flags_ext {s : Sym} (hg : s.glob = false) (hx : s.ext = true) : parseFlags s = s.importFlags + if lastFar s.words then 16 else 0 := by
  have := foldl_ext hg hx s.words false false false false
  unfold parseFlags
  show s.words.foldl (applyWord s) (flagsOf false false false false false) = _
  rw [this]
  have e : farFrom false s.words = lastFar s.words := by
    unfold farFrom
    split
    · rfl
    · rename_i h; rw [lastFar_none h]
  rw [e]
  simp [flagsOf, Sym.importFlags]

/-! ### Symbols -/

theorem exportFlags_lt (s : Sym) : s.exportFlags < 8 := by unfold Sym.exportFlags; split <;> split <;> split <;> omega
theorem importFlags_lt (s : Sym) : s.importFlags < 16 := by unfold Sym.importFlags; split <;> split <;> split <;> omega

theorem outer_eq {o : Obj} {s : Sym} (h : s.glob = true ∨ s.common = true ∨ s.ext = true) (hl : (o.outer s).length ≤ 63) : o.cutName s = o.outer s := by
  unfold Obj.cutName Obj.globalName
  rw [if_pos (by rcases h with h | h | h <;> simp [h])]
  exact List.take_of_length_le hl

theorem glob_record {o : Obj} {s : Sym} {i : Nat} (hk : SymOk o s) (hn : o.sects.length ≤ 64) (hg : s.glob = true) (ht : s.tabled = true) :
    ∃ r, o.wantSym i s = some r ∧ Pre (symBytes o i s) [r] ∧ s.passed = false := by
  obtain ⟨hx, hc, k, off, e⟩ := hk.glob hg
  obtain ⟨h1, h2⟩ := hk.label k off e
  have hlen := hk.length
  have hfl := exportFlags_lt s
  refine ⟨.exported s.exportFlags k off (o.outer s), ?_, ?_, ?_⟩
  · unfold Obj.wantSym
    rw [ht, hg, e]
    rfl
  · unfold symBytes
    simp only [hg, if_true, flags_glob hg hx, outer_eq (Or.inl hg) hk.length, valueOf, e]
    have := Pre.one (t := 3) (n := 6 + (o.outer s).length + 1)
      (body := le 1 s.exportFlags ++ (le 1 k ++ (le 4 off ++ (o.outer s ++ [0])))) (r := .exported s.exportFlags k off (o.outer s))
      (by omega) (by omega) (by simp [le_length]; omega) (by
        unfold record
        rw [if_neg (by omega), if_neg (by omega), if_pos rfl, num_le 1 _ _ (by omega)]
        simp only [Option.bind_eq_bind, Option.bind_some]
        rw [num_le 1 _ _ (by omega)]
        simp only [Option.bind_some]
        rw [num_le 4 _ _ (by omega)]
        simp only [Option.bind_some]
        rw [string_zero hk.name]
        rfl)
    simpa only [List.append_assoc] using this
  · unfold Sym.passed Sym.isLocal
    simp [ht, hg, e]

theorem getUint_eq {v : Int} (h0 : 0 ≤ v) (h1 : v < 2 ^ 32) : getUint v = v.toNat := by
  unfold getUint
  rw [if_neg (by omega), if_pos (by omega)]

theorem import_record {o : Obj} {s : Sym} {i n : Nat} (hk : SymOk o s) (him : s.imported = true) (hi : o.index n = i) (hi2 : i < 2 ^ 16) :
    ∃ r, o.wantSym n s = some r ∧ Pre (symBytes o i s) [r] ∧ s.passed = false ∧ s.glob = false ∧ Record.named i r = some (o.outer s) ∧
      ∀ j, j ≠ i → Record.named j r = none := by
  have him' := him
  unfold Sym.imported at him'
  simp only [Bool.and_eq_true, Bool.not_eq_true', Bool.or_eq_true, decide_eq_true_eq] at him'
  obtain ⟨⟨⟨ht, hg⟩, hce⟩, hne⟩ := him'
  have hlen := hk.length
  have hko := hk.other (by tauto)
  have hpass : s.passed = false := by
    unfold Sym.passed Sym.isLocal
    rcases hce with h | h <;> simp [ht, h, hko]
  cases hc : s.common
  · have hx : s.ext = true := by rcases hce with h | h; · rw [hc] at h; cases h
                                 · exact h
    have hfl := importFlags_lt s
    refine ⟨.imported (lastFar s.words) s.importFlags i (o.outer s), ?_, ?_, hpass, hg, ?_, ?_⟩
    · unfold Obj.wantSym
      rw [ht, hg, him, hc, hi]
      rfl
    · unfold symBytes
      simp only [hg, hc, Bool.false_eq_true, if_false, flags_ext hg hx, outer_eq (Or.inr (Or.inr hx)) hk.length]
      have key : ∀ t : Nat, t = 2 ∨ t = 7 → Pre (le 1 t ++ (le 1 (3 + (o.outer s).length + 1) ++ (le 1 s.importFlags ++ (le 2 i ++ (o.outer s ++ [0])))))
          [.imported (decide (t = 7)) s.importFlags i (o.outer s)] := by
        intro t ht
        refine Pre.one (by omega) (by omega) (by simp [le_length]; omega) ?_
        unfold record
        rw [if_neg (by omega), if_pos ht, num_le 1 _ _ (by omega)]
        simp only [Option.bind_eq_bind, Option.bind_some]
        rw [num_le 2 _ _ (by omega)]
        simp only [Option.bind_some]
        rw [string_zero hk.name]
        rfl
      cases hl : lastFar s.words
      · have e : ¬ ((s.importFlags + 0) / 16 % 2 = 1) := by omega
        simp only [Bool.false_eq_true, if_false, e]
        have := key 2 (Or.inl rfl)
        rw [show decide ((2 : Nat) = 7) = false from rfl] at this
        simpa only [List.append_assoc, Nat.add_zero] using this
      · have e : (s.importFlags + 16) / 16 % 2 = 1 := by omega
        simp only [if_true, e]
        have := key 7 (Or.inr rfl)
        rw [show decide ((7 : Nat) = 7) = true from rfl] at this
        simpa only [List.append_assoc, Nat.add_sub_cancel] using this
    · simp only [Record.named, if_true]
    · intro j hj; simp only [Record.named, if_neg (Ne.symm hj)]
  · obtain ⟨v, hv, v0, v1, ha, _⟩ := hk.common hc
    refine ⟨.common i v.toNat s.calign (o.outer s), ?_, ?_, hpass, hg, ?_, ?_⟩
    · unfold Obj.wantSym
      rw [ht, hg, him, hc, hi, hv]
      rfl
    · unfold symBytes sizeOf
      simp only [hg, hc, Bool.false_eq_true, if_false, if_true, outer_eq (Or.inr (Or.inl hc)) hk.length, hv, getUint_eq v0 v1]
      have := Pre.one (t := 10) (n := 8 + (o.outer s).length + 1)
        (body := le 2 i ++ (le 4 v.toNat ++ (le 2 s.calign ++ (o.outer s ++ [0])))) (r := .common i v.toNat s.calign (o.outer s))
        (by omega) (by omega) (by simp [le_length]; omega) (by
          unfold record
          rw [if_neg (by omega), if_neg (by omega), if_neg (by omega), if_neg (by omega), if_neg (by omega), if_neg (by omega), if_pos rfl,
            num_le 2 _ _ (by omega)]
          simp only [Option.bind_eq_bind, Option.bind_some]
          rw [num_le 4 _ _ (by omega)]
          simp only [Option.bind_some]
          rw [num_le 2 _ _ (by omega)]
          simp only [Option.bind_some]
          rw [string_zero hk.name]
          rfl)
      simpa only [List.append_assoc] using this
    · simp only [Record.named, if_true]
    · intro j hj; simp only [Record.named, if_neg (Ne.symm hj)]

/-- A symbol that is neither exported nor imported is passed over. -/
theorem passed_of {o : Obj} {s : Sym} (hk : s.tabled = true → SymOk o s) (hg : s.tabled = true → s.glob = false) (hi : s.imported = false) (n : Nat) :
    s.passed = true ∧ o.wantSym n s = none := by
  cases ht : s.tabled
  · exact ⟨by simp [Sym.passed, ht], by simp [Obj.wantSym, ht]⟩
  · have hg := hg ht
    refine ⟨?_, by simp [Obj.wantSym, ht, hg, hi]⟩
    unfold Sym.imported at hi
    unfold Sym.passed Sym.isLocal
    by_cases hc : s.common = true ∨ s.ext = true
    · have := (hk ht).other (by tauto)
      rcases hc with h | h <;> simp [ht, hg, h, this] at hi
    · simp only [not_or, Bool.not_eq_true] at hc
      simp [ht, hg, hc.1, hc.2]

end Verif.Rdf
