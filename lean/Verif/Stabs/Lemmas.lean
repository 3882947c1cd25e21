import Verif.Stabs.Spec
import Verif.Elf.Bytes
namespace Verif.Stabs
open Verif.Elf (Byte Name number le le_length number_le)

theorem isFun_eq : isFun = funLabel := by
  funext n
  simp only [isFun, funLabel, List.contains_eq_mem, Bool.decide_and, decide_not]

/-! ### Events -/

/-- What is generated: functions, and lines with offsets from the function before. -/
inductive Ev where
  | fn (n : Name)
  | ln (line delta : Nat)

def stabsOf : Nat → List Ev → List Stab
  | _, [] => []
  | st, .fn n :: es => ⟨st, 0x24, 0, .inl (.label n)⟩ :: stabsOf (st + (n.length + 4)) es
  | st, .ln l d :: es => ⟨0, 0x44, l % 65536, .inr d⟩ :: stabsOf st es

def strsOf : List Ev → List Name
  | [] => []
  | .fn n :: es => (n ++ funTail) :: strsOf es
  | .ln _ _ :: es => strsOf es

theorem size_append (a b : List Name) : size (a ++ b) = size a + size b := by simp [size]

theorem stabsOf_append (a b : List Ev) (st : Nat) : stabsOf st (a ++ b) = stabsOf st a ++ stabsOf (st + size (strsOf a)) b := by
  induction a generalizing st with
  | nil => simp [stabsOf, strsOf, size]
  | cons e es ih =>
    cases e with
    | fn n =>
      simp only [List.cons_append, stabsOf, strsOf, ih]
      congr 3
      simp only [size, List.map_cons, List.sum_cons, List.length_append]
      have : funTail.length = 3 := rfl
      omega
    | ln l d => simp only [List.cons_append, stabsOf, strsOf, ih]

theorem strsOf_append (a b : List Ev) : strsOf (a ++ b) = strsOf a ++ strsOf b := by
  induction a with
  | nil => rfl
  | cons e es ih => cases e <;> simp [strsOf, ih]

def evFun (labels : List Name) : List Ev := ((labels.find? isFun).map Ev.fn).toList

def baseAfter (base : Option Nat) (off : Nat) (labels : List Name) : Option Nat := if (labels.find? isFun).isSome then some off else base

def lastOf (ll : Nat) (lf : Option Name) (f : Name) : Nat := if lf ≠ some f then 0 else ll

def evLine (base : Option Nat) (ll : Nat) (lf : Option Name) (off : Nat) (b : Bc) : List Ev :=
  match base with
  | none => []
  | some o => if b.line ≠ lastOf ll lf b.file then [.ln b.line (off - o)] else []

def evs (base : Option Nat) (ll : Nat) (lf : Option Name) (off : Nat) : List Bc → List Ev
  | [] => []
  | b :: bs =>
    evFun b.labels ++ (evLine (baseAfter base off b.labels) ll lf off b ++ evs (baseAfter base off b.labels) b.line (some b.file) (off + b.len) bs)

/-- The stabs and strings of events have been appended. -/
def App (i j : Info) (es : List Ev) : Prop := j.stabs = i.stabs ++ stabsOf (size i.strs) es ∧ j.strs = i.strs ++ strsOf es

theorem App.trans {i j k : Info} {a b : List Ev} (h : App i j a) (h' : App j k b) : App i k (a ++ b) := by
  obtain ⟨h1, h2⟩ := h
  obtain ⟨h3, h4⟩ := h'
  refine ⟨?_, ?_⟩
  · rw [h3, h1, h2, stabsOf_append, size_append, List.append_assoc]
  · rw [h4, h2, strsOf_append, List.append_assoc]

theorem genFun_app (i : Info) (off : Nat) (labels : List Name) : App i (i.genFun off labels) (evFun labels) ∧
    (i.genFun off labels).base = baseAfter i.base off labels ∧ (i.genFun off labels).lastline = i.lastline ∧
    (i.genFun off labels).lastfile = i.lastfile := by
  unfold Info.genFun evFun baseAfter
  cases labels.find? isFun with
  | none => simp [App, stabsOf, strsOf]
  | some n => simp [App, stabsOf, strsOf, Info.str, Info.stab]

theorem genLine_app (j : Info) (off : Nat) (b : Bc) : App j (j.genLine off b) (evLine j.base j.lastline j.lastfile off b) ∧
    (j.genLine off b).base = j.base ∧ (j.genLine off b).lastline = b.line ∧ (j.genLine off b).lastfile = some b.file := by
  unfold Info.genLine evLine lastOf
  by_cases hf : j.lastfile = some b.file
  · simp only [hf, ne_eq, not_true_eq_false, if_false]
    cases hb : j.base with
    | none => simp [App, stabsOf, strsOf, hb]
    | some o =>
      by_cases hl : b.line = j.lastline
      · simp [App, stabsOf, strsOf, hb, hl]
      · simp [App, stabsOf, strsOf, hb, hl, Info.stab]
  · simp only [hf, ne_eq, not_false_eq_true, if_true]
    cases hb : j.base with
    | none => simp [App, stabsOf, strsOf]
    | some o =>
      by_cases hl : b.line = 0
      · simp [App, stabsOf, strsOf, hb, hl]
      · simp [App, stabsOf, strsOf, hb, hl, Info.stab]

theorem genBc_app (i : Info) (off : Nat) (b : Bc) :
    App i (i.genBc off b) (evFun b.labels ++ evLine (baseAfter i.base off b.labels) i.lastline i.lastfile off b) ∧
    (i.genBc off b).base = baseAfter i.base off b.labels ∧ (i.genBc off b).lastline = b.line ∧ (i.genBc off b).lastfile = some b.file := by
  obtain ⟨h1, h2, h3, h4⟩ := genFun_app i off b.labels
  obtain ⟨g1, g2, g3, g4⟩ := genLine_app (i.genFun off b.labels) off b
  rw [h2, h3, h4] at g1
  exact ⟨h1.trans g1, g2.trans h2, g3, g4⟩

theorem genBcs_app (bs : List Bc) (i : Info) (off : Nat) : App i (i.genBcs off bs) (evs i.base i.lastline i.lastfile off bs) := by
  induction bs generalizing i off with
  | nil => simp [Info.genBcs, evs, App, stabsOf, strsOf]
  | cons b bs ih =>
    obtain ⟨h1, h2, h3, h4⟩ := genBc_app i off b
    have := h1.trans (ih (i.genBc off b) (off + b.len))
    rw [h2, h3, h4] at this
    unfold Info.genBcs evs
    rw [← List.append_assoc]
    exact this

/-- The events of the section `s`. -/
def Sect.evs (s : Sect) : List Ev := evFun s.first ++ Verif.Stabs.evs (baseAfter none 0 s.first) 0 none 0 s.bcs

theorem lower_text : dotText.map lower = dotText := by decide

def tailOf (o : Obj) (s : Sect) : List Stab :=
  ⟨1, 0x64, 0, .inl .text⟩ :: (stabsOf (size [[], o.src]) s.evs ++ [⟨0, 0x64, 0, .inl .last⟩])

theorem generate_eq {o : Obj} {s : Sect} {rest : List Sect} {r : Result} (ho : o.sects = s :: rest) (hn : s.name = dotText) (h : generate o = some r) :
    r.strs = [] :: o.src :: strsOf s.evs ∧
      r.stabs = ⟨1, 0, if (tailOf o s).length > 0xffff then 0xffff else (tailOf o s).length, .inr (size r.strs)⟩ :: tailOf o s ∧
      r.warnings = (if (tailOf o s).length > 0xffff then 1 else 0) := by
  unfold generate at h
  split at h
  · simp at h
  · simp only [ho, Info.genSects, Info.genSect, hn, lower_text, if_true, Info.str, Info.stab, List.nil_append, List.cons_append] at h
    have a := (genFun_app ⟨[⟨size [[]], 0x64, 0 % 65536, .inl .text⟩], [[], o.src], none, 0, none⟩ 0 s.first)
    have b := genBcs_app s.bcs ((⟨[⟨size [[]], 0x64, 0 % 65536, .inl .text⟩], [[], o.src], none, 0, none⟩ : Info).genFun 0 s.first) 0
    rw [a.2.1, a.2.2.1, a.2.2.2] at b
    have c := a.1.trans b
    generalize (Info.genFun _ 0 s.first).genBcs 0 s.bcs = j at c h
    obtain ⟨c1, c2⟩ := c
    have hj : j.stabs ++ [⟨0, 0x64, 0 % 65536, .inl .last⟩] = tailOf o s := by rw [c1]; rfl
    rw [hj] at h
    simp only [Option.some.injEq] at h
    subst h
    exact ⟨by rw [c2]; rfl, rfl, rfl⟩

/-! ### Reading -/

def decode (addr : Ref → Nat) (strs : List Byte) (s : Stab) : Read :=
  ⟨stringAt strs s.str, s.type, s.desc, match s.value with | .inl r => addr r | .inr v => v⟩

structure Small (s : Stab) : Prop where
  str : s.str < 2 ^ 32
  type : s.type < 256
  desc : s.desc < 65536
  value : ∀ v, s.value = .inr v → v < 2 ^ 32

theorem stabBytes_length (s : Stab) : (stabBytes s).length = 12 := by simp [stabBytes, le_length]

theorem field (a b c : List Byte) {n m : Nat} (ha : a.length = n) (hb : b.length = m) : ((a ++ (b ++ c)).drop n).take m = b := by
  subst ha hb
  rw [List.drop_left, List.take_left]

theorem stabsAt_eq (addr : Ref → Nat) (rels : List (Nat × Nat)) (strs : List Byte) (ss : List Stab) (pos : Nat) (hs : ∀ s ∈ ss, Small s)
    (hr : ∀ (k : Nat) (s : Stab), ss[k]? = some s → rels.lookup (pos + 12 * k + 8) = match s.value with | .inl r => some (addr r) | .inr _ => none) :
    stabsAt rels strs ss.length pos (ss.flatMap stabBytes) = some (ss.map (decode addr strs)) := by
  induction ss generalizing pos with
  | nil => rfl
  | cons s ss ih =>
    have ho := hs s (by simp)
    have e : (s :: ss).flatMap stabBytes = stabBytes s ++ ss.flatMap stabBytes := rfl
    have ih' := ih (pos + 12) (fun s hm => hs s (by simp [hm])) (fun k t hk => by
      have := hr (k + 1) t (by simpa using hk)
      rw [← this]
      congr 1
      omega)
    have f1 : number (((s :: ss).flatMap stabBytes).take 4) = s.str := by
      have := field [] (le 4 s.str) ((le 1 s.type ++ (le 1 0 ++ (le 2 s.desc ++ le 4 s.low))) ++
        ss.flatMap stabBytes) rfl (le_length 4 s.str)
      rw [e, stabBytes, List.append_assoc]
      rw [List.nil_append] at this
      have this : (le 4 s.str ++ _).take 4 = _ := this
      rw [this, number_le, Nat.mod_eq_of_lt (by have := ho.str; omega)]
    have f2 : number ((((s :: ss).flatMap stabBytes).drop 4).take 1) = s.type := by
      have := field (le 4 s.str) (le 1 s.type) ((le 1 0 ++ (le 2 s.desc ++ le 4 s.low)) ++
        ss.flatMap stabBytes) (le_length _ _) (le_length 1 s.type)
      rw [e, stabBytes]
      simp only [List.append_assoc] at this ⊢
      rw [this, number_le, Nat.mod_eq_of_lt (by have := ho.type; omega)]
    have f3 : number ((((s :: ss).flatMap stabBytes).drop 6).take 2) = s.desc := by
      have := field (le 4 s.str ++ (le 1 s.type ++ le 1 0)) (le 2 s.desc) (le 4 s.low ++
        ss.flatMap stabBytes) (n := 6) (by simp [le_length]) (le_length 2 s.desc)
      rw [e, stabBytes]
      simp only [List.append_assoc] at this ⊢
      rw [this, number_le, Nat.mod_eq_of_lt (by have := ho.desc; omega)]
    have f4 : number ((((s :: ss).flatMap stabBytes).drop 8).take 4) = s.low := by
      have := field (le 4 s.str ++ (le 1 s.type ++ (le 1 0 ++ le 2 s.desc))) (le 4 s.low)
        (ss.flatMap stabBytes) (n := 8) (by simp [le_length]) (le_length 4 _)
      rw [e, stabBytes]
      simp only [List.append_assoc] at this ⊢
      rw [this, number_le, Nat.mod_eq_of_lt]
      unfold Stab.low
      cases hv : s.value with
      | inl r => simp
      | inr v => exact ho.value v hv
    have f5 : ((s :: ss).flatMap stabBytes).drop 12 = ss.flatMap stabBytes := by
      rw [e, ← stabBytes_length s, List.drop_left]
    have f6 : ¬ ((s :: ss).flatMap stabBytes).length < 12 := by rw [e, List.length_append, stabBytes_length]; omega
    rw [List.length_cons, stabsAt, if_neg f6, f1, f2, f3, f4, f5, ih', Option.map_some, List.map_cons]
    have hk := hr 0 s rfl
    simp only [Nat.mul_zero, Nat.add_zero] at hk
    rw [hk]
    congr 2
    unfold decode Stab.low
    cases s.value <;> rfl

theorem relocs_keys (ss : List Stab) (pos : Nat) : ∀ p ∈ relocs pos ss, pos + 8 ≤ p.1 := by
  induction ss generalizing pos with
  | nil => simp [relocs]
  | cons s ss ih =>
    intro p hp
    simp only [relocs, List.mem_append] at hp
    rcases hp with hp | hp
    · cases hv : s.value <;> simp [hv] at hp
      simp [hp]
    · have := ih _ p hp
      omega

theorem lookup_none {l : List (Nat × Nat)} {k : Nat} (h : ∀ p ∈ l, k < p.1) : l.lookup k = none := by
  induction l with
  | nil => rfl
  | cons p l ih =>
    have := h p (by simp)
    rw [List.lookup_cons, ih fun q hq => h q (by simp [hq])]
    have : (k == p.1) = false := by simp; omega
    rw [this]

theorem relocs_lookup (addr : Ref → Nat) (ss : List Stab) (pos k : Nat) (s : Stab) (hk : ss[k]? = some s) :
    ((relocs pos ss).map fun p => (p.1, addr p.2)).lookup (pos + 12 * k + 8) = match s.value with | .inl r => some (addr r) | .inr _ => none := by
  induction ss generalizing pos k with
  | nil => simp at hk
  | cons t ss ih =>
    have hn : ((relocs (pos + 12) ss).map fun p => (p.1, addr p.2)).lookup (pos + 8) = none := by
      apply lookup_none
      intro p hp
      obtain ⟨q, hq, rfl⟩ := List.mem_map.1 hp
      have := relocs_keys _ _ q hq
      show pos + 8 < q.1
      omega
    cases k with
    | zero =>
      obtain rfl : t = s := by simpa using hk
      unfold relocs
      cases t.value with
      | inl r => simp [List.lookup_cons]
      | inr v => simpa using hn
    | succ k =>
      have := ih (pos + 12) k (by simpa using hk)
      have e : pos + 12 * (k + 1) + 8 = pos + 12 + 12 * k + 8 := by omega
      unfold relocs
      rw [e]
      cases t.value with
      | inl r =>
        simp only [List.cons_append, List.nil_append, List.map_cons, List.lookup_cons]
        have h : (pos + 12 + 12 * k + 8 == pos + 8) = false := by simp; omega
        rw [h]
        exact this
      | inr v => simpa using this

theorem readStabs_eq (addr : Ref → Nat) (r : Result) (hs : ∀ s ∈ r.stabs, Small s) :
    readStabs addr r = some (r.stabs.map (decode addr r.stabstr)) := by
  unfold readStabs
  have hl : r.stab.length / 12 = r.stabs.length := by
    unfold Result.stab
    rw [List.length_flatMap]
    have : (r.stabs.map fun s => (stabBytes s).length).sum = 12 * r.stabs.length := by
      induction r.stabs with
      | nil => rfl
      | cons s ss ih => rw [List.map_cons, List.sum_cons, ih, stabBytes_length, List.length_cons]; omega
    rw [this]
    omega
  rw [hl]
  refine stabsAt_eq addr _ _ _ 0 hs fun k s hk => ?_
  have := relocs_lookup addr r.stabs 0 k s hk
  exact this

theorem takeWhile_zero (a b : List Byte) (h : ∀ c ∈ a, c ≠ 0) : (a ++ 0 :: b).takeWhile (· ≠ 0) = a := by
  induction a with
  | nil => rfl
  | cons c a ih =>
    have hc : decide (c ≠ 0) = true := decide_eq_true (h c (by simp))
    rw [List.cons_append, List.takeWhile_cons, if_pos hc, ih fun d hd => h d (by simp [hd])]

theorem stringAt_eq (a : List Name) (s : Name) (b : List Name) (h : ∀ c ∈ s, c ≠ 0) :
    stringAt ((a ++ s :: b).flatMap fun s => s ++ [0]) (size a) = s := by
  have hl : size a = (a.flatMap fun s => s ++ [0]).length := by simp [size, List.length_flatMap]
  unfold stringAt
  rw [List.flatMap_append, hl, List.drop_left, List.flatMap_cons, List.append_assoc]
  exact takeWhile_zero _ _ h

theorem size_length (l : List Name) : (l.flatMap fun s => s ++ [0]).length = size l := by simp [size, List.length_flatMap]

end Verif.Stabs
