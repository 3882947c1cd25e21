import Verif.Stabs.Lemmas
namespace Verif.Stabs
open Verif.Elf (Byte Name number le le_length number_le)

variable {o : Obj} {s : Sect} {rest : List Sect} {r : Result} {addr : Ref → Nat} {base : Nat}

/-! ### What the stabs of events are read as -/

def readOf (addr : Ref → Nat) : Ev → Read
  | .fn n => ⟨n ++ funTail, 0x24, 0, addr (.label n)⟩
  | .ln l d => ⟨[], 0x44, l % 65536, d⟩

def Ev.Clean : Ev → Prop
  | .fn n => ∀ c ∈ n, c ≠ 0 ∧ c ≠ 58#8
  | .ln _ d => d < 2 ^ 32

theorem tail_clean : ∀ c ∈ funTail, c ≠ 0 := by decide

theorem decode_events (es : List Ev) (pre post : List Name) (hc : ∀ e ∈ es, e.Clean) :
    (stabsOf (size ([] :: pre)) es).map (decode addr (([] :: pre ++ strsOf es ++ post).flatMap fun s => s ++ [0])) = es.map (readOf addr) := by
  induction es generalizing pre with
  | nil => rfl
  | cons e es ih =>
    have ih' := fun p => ih p fun e he => hc e (by simp [he])
    cases e with
    | fn n =>
      have hn := hc _ (List.mem_cons_self ..)
      have h1 := stringAt_eq ([] :: pre) (n ++ funTail) (strsOf es ++ post) (by
        intro c hm
        rcases List.mem_append.1 hm with hm | hm
        · exact (hn c hm).1
        · exact tail_clean c hm)
      have h2 := ih' (pre ++ [n ++ funTail])
      have e1 : size ([] :: (pre ++ [n ++ funTail])) = size ([] :: pre) + (n.length + 4) := by
        rw [← List.cons_append, size_append]
        simp [size, funTail]
      rw [e1] at h2
      have e2 : [] :: (pre ++ [n ++ funTail]) ++ strsOf es ++ post = [] :: pre ++ strsOf (.fn n :: es) ++ post := by simp [strsOf]
      rw [e2] at h2
      have e3 : ([] :: pre) ++ (n ++ funTail) :: (strsOf es ++ post) = [] :: pre ++ strsOf (.fn n :: es) ++ post := by simp [strsOf]
      rw [e3] at h1
      rw [stabsOf, List.map_cons, h2, List.map_cons]
      congr 1
      unfold decode
      rw [h1]
      rfl
    | ln l d =>
      rw [stabsOf, List.map_cons, List.map_cons]
      have h2 := ih' pre
      rw [show strsOf (.ln l d :: es) = strsOf es from rfl, h2]
      congr 1

/-! ### The events are clean -/

theorem evFun_mem {labels : List Name} {e : Ev} (h : e ∈ evFun labels) : ∃ n ∈ labels, e = .fn n := by
  unfold evFun at h
  cases hf : labels.find? isFun with
  | none => simp [hf] at h
  | some n =>
    simp only [hf, Option.map_some, Option.toList_some, List.mem_singleton] at h
    exact ⟨n, List.mem_of_find?_eq_some hf, h⟩

theorem evs_clean (bs : List Bc) (b : Option Nat) (ll : Nat) (lf : Option Name) (off : Nat)
    (hl : ∀ b ∈ bs, ∀ n ∈ b.labels, ∀ c ∈ n, c ≠ 0 ∧ c ≠ 58#8) (hs : off + lengthOf bs < 2 ^ 32) : ∀ e ∈ evs b ll lf off bs, e.Clean := by
  induction bs generalizing b ll lf off with
  | nil => simp [evs]
  | cons x bs ih =>
    have hlen : lengthOf (x :: bs) = x.len + lengthOf bs := by simp [lengthOf]
    intro e he
    simp only [evs, List.mem_append] at he
    rcases he with he | he | he
    · obtain ⟨n, hn, rfl⟩ := evFun_mem he
      exact hl x (by simp) n hn
    · unfold evLine at he
      split at he
      · simp at he
      · split at he
        · simp only [List.mem_singleton] at he
          subst he
          show _ - _ < 2 ^ 32
          omega
        · simp at he
    · exact ih _ _ _ _ (fun b hb => hl b (by simp [hb])) (by omega) e he

theorem Sect.evs_clean (hf : Fits o s r) : ∀ e ∈ s.evs, e.Clean := by
  intro e he
  rcases List.mem_append.1 he with he | he
  · obtain ⟨n, hn, rfl⟩ := evFun_mem he
    exact hf.names n hn
  · exact Verif.Stabs.evs_clean s.bcs _ _ _ 0 hf.labels (by have := hf.length; omega) e he

/-! ### All the stabs -/

theorem stabsOf_small (es : List Ev) (st : Nat) (hc : ∀ e ∈ es, e.Clean) (hs : st + size (strsOf es) < 2 ^ 32) : ∀ x ∈ stabsOf st es, Small x := by
  induction es generalizing st with
  | nil => simp [stabsOf]
  | cons e es ih =>
    intro x hx
    cases e with
    | fn n =>
      have e1 : size (strsOf (.fn n :: es)) = n.length + 4 + size (strsOf es) := by simp [strsOf, size, funTail]
      rcases List.mem_cons.1 hx with rfl | hx
      · exact ⟨by show st < _; omega, show 36 < 256 by decide, show 0 < 65536 by decide, by simp⟩
      · exact ih _ (fun e he => hc e (by simp [he])) (by omega) x hx
    | ln l d =>
      rcases List.mem_cons.1 hx with rfl | hx
      · refine ⟨show 0 < 2 ^ 32 by decide, show 68 < 256 by decide, Nat.mod_lt _ (by decide), ?_⟩
        intro v hv
        obtain rfl : d = v := by simpa using hv
        exact hc _ (List.mem_cons_self ..)
      · exact ih _ (fun e he => hc e (by simp [he])) hs x hx

theorem read_all (ho : o.sects = s :: rest) (hn : s.name = dotText) (h : generate o = some r) (hf : Fits o s r) :
    ∃ n v, readStabs addr r = some (⟨o.src, 0, n, v⟩ :: ⟨o.src, 0x64, 0, addr .text⟩ :: (s.evs.map (readOf addr) ++ [⟨[], 0x64, 0, addr .last⟩])) ∧
      n = (if s.evs.length + 2 > 0xffff then 0xffff else s.evs.length + 2) ∧ v = r.stabstr.length := by
  obtain ⟨h1, h2, -⟩ := generate_eq ho hn h
  have hz : r.stabstr.length = size r.strs := size_length _
  have hsz := hf.size
  have hclean := Sect.evs_clean hf
  have hs2 : size r.strs = size [[], o.src] + size (strsOf s.evs) := by
    rw [h1, show ([] : Name) :: o.src :: strsOf s.evs = [[], o.src] ++ strsOf s.evs from rfl, size_append]
  have hlen : ∀ st es, (stabsOf st es).length = es.length := by
    intro st es
    induction es generalizing st with
    | nil => rfl
    | cons e es ih => cases e <;> simp [stabsOf, ih]
  have hsm : ∀ x ∈ r.stabs, Small x := by
    intro x hx
    rw [h2] at hx
    rcases List.mem_cons.1 hx with rfl | hx
    · refine ⟨show 1 < 2 ^ 32 by decide, show 0 < 256 by decide, ?_, ?_⟩
      · show (if _ then _ else _) < 65536
        split <;> omega
      · intro v hv
        obtain rfl : size r.strs = v := by simpa using hv
        omega
    · rcases List.mem_cons.1 hx with rfl | hx
      · exact ⟨by decide, by decide, by decide, by simp⟩
      · rcases List.mem_append.1 hx with hx | hx
        · exact stabsOf_small _ _ hclean (by omega) x hx
        · obtain rfl := List.mem_singleton.1 hx
          exact ⟨by decide, by decide, by decide, by simp⟩
  rw [readStabs_eq addr r hsm]
  have hl : (tailOf o s).length = s.evs.length + 2 := by simp [tailOf, hlen]
  have s1 : stringAt r.stabstr 1 = o.src := by
    have := stringAt_eq [[]] o.src (strsOf s.evs) hf.src
    unfold Result.stabstr
    rw [h1]
    exact this
  have s0 : stringAt r.stabstr 0 = [] := by
    have := stringAt_eq [] [] (o.src :: strsOf s.evs) (by simp)
    unfold Result.stabstr
    rw [h1]
    exact this
  have hev : (stabsOf (size [[], o.src]) s.evs).map (decode addr r.stabstr) = s.evs.map (readOf addr) := by
    have := decode_events (addr := addr) s.evs [o.src] [] hclean
    unfold Result.stabstr
    rw [h1]
    rw [List.append_nil] at this
    exact this
  refine ⟨_, _, ?_, rfl, rfl⟩
  rw [h2, List.map_cons, tailOf, List.map_cons, List.map_append, hev]
  simp only [decode, s1, s0, List.map_cons, List.map_nil, Option.some.injEq]
  rw [hz]
  congr 2
  rw [← hl]
  rfl

/-! ### Functions -/

def fns (addr : Ref → Nat) (es : List Ev) : List (Name × Nat) :=
  es.filterMap fun | .fn n => some (n, addr (.label n)) | .ln _ _ => none

def lns (addr : Ref → Nat) : Option Nat → List Ev → List (Nat × Nat)
  | _, [] => []
  | _, .fn n :: es => lns addr (some (addr (.label n))) es
  | cur, .ln l d :: es => (l % 65536, cur.getD 0 + d) :: lns addr cur es

theorem takeWhile_colon (n : Name) (h : ∀ c ∈ n, c ≠ 58#8) : (n ++ funTail).takeWhile (· ≠ 58#8) = n := by
  induction n with
  | nil => rfl
  | cons c a ih =>
    have hc : decide (c ≠ 58#8) = true := decide_eq_true (h c (by simp))
    rw [List.cons_append, List.takeWhile_cons, if_pos hc, ih fun d hd => h d (by simp [hd])]

theorem walk_events (es : List Ev) (cur : Option Nat) (f : Name × Nat) (hc : ∀ e ∈ es, e.Clean) :
    walk cur (es.map (readOf addr) ++ [⟨f.1, 0x64, 0, f.2⟩]) = ⟨[f], fns addr es, lns addr cur es⟩ := by
  induction es generalizing cur with
  | nil => rfl
  | cons e es ih =>
    have ih' := fun c => ih c fun e he => hc e (by simp [he])
    have h1 := hc _ (List.mem_cons_self ..)
    cases e with
    | fn n =>
      rw [List.map_cons, List.cons_append, walk]
      rw [if_neg (show ¬ (readOf addr (.fn n)).type = 0x64 from (by decide : ¬ 36 = 0x64)), if_pos (by rfl)]
      rw [show (readOf addr (.fn n)).value = addr (.label n) from rfl, show (readOf addr (.fn n)).string = n ++ funTail from rfl, ih',
        takeWhile_colon n fun c hc => (h1 c hc).2]
      rfl
    | ln l d =>
      rw [List.map_cons, List.cons_append, walk]
      rw [if_neg (show ¬ (readOf addr (.ln l d)).type = 0x64 from (by decide : ¬ 68 = 0x64)),
        if_neg (show ¬ (readOf addr (.ln l d)).type = 0x24 from (by decide : ¬ 68 = 0x24)), if_pos (by rfl)]
      rw [ih']
      rfl

theorem fns_append (a b : List Ev) : fns addr (a ++ b) = fns addr a ++ fns addr b := by simp [fns]

theorem fns_evFun (labels : List Name) : fns addr (evFun labels) = ((labels.find? funLabel).map fun n => (n, addr (.label n))).toList := by
  unfold evFun
  rw [isFun_eq]
  cases labels.find? funLabel <;> rfl

theorem fns_evLine (b : Option Nat) (ll : Nat) (lf : Option Name) (off : Nat) (x : Bc) : fns addr (evLine b ll lf off x) = [] := by
  unfold evLine
  split
  · rfl
  · split <;> rfl

theorem fns_evs (bs : List Bc) (b : Option Nat) (ll : Nat) (lf : Option Name) (off : Nat)
    (ha : ∀ n k, (n, k) ∈ functionsFrom off bs → addr (.label n) = base + k) :
    fns addr (evs b ll lf off bs) = (functionsFrom off bs).map fun p => (p.1, base + p.2) := by
  induction bs generalizing b ll lf off with
  | nil => rfl
  | cons x bs ih =>
    rw [evs, fns_append, fns_append, fns_evLine, fns_evFun, List.nil_append, functionsFrom, List.map_append]
    rw [ih _ _ _ _ fun n k h => ha n k (by simp [functionsFrom, h])]
    congr 1
    cases hf : x.labels.find? funLabel with
    | none => rfl
    | some n =>
      have := ha n (off + x.len) (by simp [functionsFrom, hf])
      simp [this]

theorem Sect.fns (ha : Addrs s base addr) : Verif.Stabs.fns addr s.evs = s.functions.map fun p => (p.1, base + p.2) := by
  unfold Sect.evs
  rw [fns_append, fns_evFun, fns_evs (base := base) _ _ _ _ _ fun n k h => ha.label n k (List.mem_append.2 (.inr h))]
  unfold Sect.functions
  rw [List.map_append]
  congr 1
  cases hf : s.first.find? funLabel with
  | none => rfl
  | some n =>
    have := ha.label n 0 (by simp [Sect.functions, hf])
    simp [this]

/-! ### Lines -/

theorem lineOf_append (a b : List (Nat × Nat)) (x l : Nat) (ha : ∀ p ∈ a, p.2 ≤ x) (hl : a.getLast?.map (·.1) = some l) (hb : ∀ p ∈ b, x < p.2) :
    lineOf (a ++ b) x = some l := by
  unfold lineOf
  have h1 : a.filter (fun p => decide (p.2 ≤ x)) = a := List.filter_eq_self.2 fun p hp => by simpa using ha p hp
  have h2 : b.filter (fun p => decide (p.2 ≤ x)) = [] := List.filter_eq_nil_iff.2 fun p hp => by have := hb p hp; simp; omega
  rw [List.filter_append, h1, h2, List.append_nil, hl]

/-- The bytecodes from `off` on: functions only behind empty bytecodes, and lines from 1 to 65535. -/
structure Tame (addr : Ref → Nat) (base : Nat) (off : Nat) (bs : List Bc) : Prop where
  label : ∀ n k, (n, k) ∈ functionsFrom off bs → addr (.label n) = base + k
  empty : ∀ b ∈ bs, b.labels.any funLabel = true → b.len = 0
  line : ∀ b ∈ bs, 0 < b.line ∧ b.line < 65536

theorem Tame.tail {off : Nat} {x : Bc} {bs : List Bc} (h : Tame addr base off (x :: bs)) : Tame addr base (off + x.len) bs where
  label := fun n k hm => h.label n k (by simp [functionsFrom, hm])
  empty := fun b hb => h.empty b (by simp [hb])
  line := fun b hb => h.line b (by simp [hb])

/-- One bytecode: the line, if it is new. -/
theorem lns_head {off : Nat} {x : Bc} {bs : List Bc} (h : Tame addr base off (x :: bs)) (b ll : Nat) (lf : Option Name) (hb : b ≤ off) :
    ∃ b', b' ≤ off ∧ lns addr (some (base + b)) (evs (some b) ll lf off (x :: bs)) =
      (if x.line ≠ lastOf ll lf x.file then [(x.line, base + off)] else []) ++
        lns addr (some (base + b')) (evs (some b') x.line (some x.file) (off + x.len) bs) := by
  have hl := (h.line x (by simp)).2
  rw [evs]
  unfold evFun baseAfter
  rw [isFun_eq]
  cases hf : x.labels.find? funLabel with
  | none =>
    refine ⟨b, hb, ?_⟩
    simp only [Option.map_none, Option.toList_none, List.nil_append, Option.isSome_none, Bool.false_eq_true, if_false, evLine]
    split
    · simp only [List.singleton_append, lns, Option.getD_some, Nat.mod_eq_of_lt hl, List.cons.injEq, Prod.mk.injEq, true_and]
      exact ⟨by omega, trivial⟩
    · rfl
  | some n =>
    have hz : x.len = 0 := h.empty x (by simp) (List.any_eq_true.2 ⟨n, List.mem_of_find?_eq_some hf, List.find?_some hf⟩)
    have ha : addr (.label n) = base + off := by
      have := h.label n (off + x.len) (by simp [functionsFrom, hf])
      rw [this, hz]
      rfl
    refine ⟨off, le_refl _, ?_⟩
    simp only [Option.map_some, Option.toList_some, Option.isSome_some, if_true, evLine, List.singleton_append, lns, ha]
    split
    · simp only [List.singleton_append, lns, Option.getD_some, Nat.mod_eq_of_lt hl, List.cons.injEq, Prod.mk.injEq, true_and]
      exact ⟨by omega, trivial⟩
    · rfl

theorem lns_above (bs : List Bc) (off b ll : Nat) (lf : Option Name) (h : Tame addr base off bs) (hb : b ≤ off) :
    ∀ p ∈ lns addr (some (base + b)) (evs (some b) ll lf off bs), base + off ≤ p.2 := by
  induction bs generalizing off b ll lf with
  | nil => simp [evs, lns]
  | cons x bs ih =>
    obtain ⟨b', hb', e⟩ := lns_head h b ll lf hb
    rw [e]
    intro p hp
    rcases List.mem_append.1 hp with hp | hp
    · split at hp
      · obtain rfl := List.mem_singleton.1 hp
        exact le_refl _
      · simp at hp
    · have := ih (off + x.len) b' x.line (some x.file) h.tail (by omega) p hp
      omega

theorem lines_lemma (bs : List Bc) (off b ll : Nat) (lf : Option Name) (h : Tame addr base off bs) (hb : b ≤ off) (L : List (Nat × Nat))
    (hL : ∀ p ∈ L, p.2 ≤ base + off) (hl : ll ≠ 0 → L.getLast?.map (·.1) = some ll) (pre post : List Bc) (x : Bc) (hx : bs = pre ++ x :: post)
    (a : Nat) (h1 : off + lengthOf pre ≤ a) (h2 : a < off + lengthOf pre + x.len) :
    lineOf (L ++ lns addr (some (base + b)) (evs (some b) ll lf off bs)) (base + a) = some x.line := by
  induction bs generalizing off b ll lf L pre with
  | nil => simp at hx
  | cons y bs ih =>
    obtain ⟨b', hb', e⟩ := lns_head h b ll lf hb
    rw [e, ← List.append_assoc]
    have hy := (h.line y (by simp)).1
    generalize hM : L ++ (if y.line ≠ lastOf ll lf y.file then [(y.line, base + off)] else []) = M
    have hM1 : ∀ p ∈ M, p.2 ≤ base + off := by
      rw [← hM]
      intro p hp
      rcases List.mem_append.1 hp with hp | hp
      · exact hL p hp
      · split at hp
        · obtain rfl := List.mem_singleton.1 hp
          exact le_refl _
        · simp at hp
    have hM2 : M.getLast?.map (·.1) = some y.line := by
      rw [← hM]
      by_cases hc : y.line ≠ lastOf ll lf y.file
      · rw [if_pos hc]; simp
      · rw [if_neg hc, List.append_nil]
        have hc : y.line = _ := not_not.1 hc
        unfold lastOf at hc
        by_cases hff : lf ≠ some y.file
        · rw [if_pos hff] at hc; omega
        · rw [if_neg hff] at hc
          rw [hc]
          exact hl (by omega)
    cases pre with
    | nil =>
      obtain ⟨rfl, rfl⟩ : y = x ∧ bs = post := by simpa using hx
      simp only [lengthOf, List.map_nil, List.sum_nil, Nat.add_zero] at h1 h2
      refine lineOf_append M _ _ _ (fun p hp => by have := hM1 p hp; omega) hM2 fun p hp => ?_
      have := lns_above bs (off + y.len) b' y.line (some y.file) h.tail (by omega) p hp
      omega
    | cons z pre =>
      obtain ⟨rfl, rfl⟩ : y = z ∧ bs = pre ++ x :: post := by simpa using hx
      have hlen : lengthOf (y :: pre) = y.len + lengthOf pre := by simp [lengthOf]
      exact ih (off + y.len) b' y.line (some y.file) h.tail (by omega) M (fun p hp => by have := hM1 p hp; omega) (fun _ => hM2) pre rfl
        (by omega) (by omega)

end Verif.Stabs
