import Verif.Unwind.Said
import Verif.Unwind.Lemmas
/-
Lemmas about the directives for unwind information.
-/
namespace Verif.Unwind

/-- The code of a directive. -/
def codeOf (d : Int × Dir) : Code :=
  match d.2 with
  | .pushReg r => ⟨d.1, 0, r % 16, 0⟩
  | .setFrame r off => ⟨d.1, 3, r % 16, off⟩
  | .allocStack n => ⟨d.1, 2, 0, n⟩
  | .saveReg r off => ⟨d.1, 4, r % 16, off⟩
  | .saveXmm r off => ⟨d.1, 8, r % 16, off⟩
  | .pushFrame a => ⟨d.1, 10, if a then 1 else 0, 0⟩
  | _ => ⟨d.1, 0, 0, 0⟩

/-- The frame after directives, if it was `fr` before. -/
def frameFrom (fr : Nat × Int) : List (Int × Dir) → Nat × Int
  | [] => fr
  | d :: l => frameFrom (match d.2 with | .setFrame r off => (r, off) | _ => fr) l

theorem frameFrom_any : ∀ (l : List (Int × Dir)) (fr fr' : Nat × Int),
    l.any (fun d => d.2.isFrame) = true → frameFrom fr l = frameFrom fr' l
  | [], _, _, h => by simp at h
  | d :: l, fr, fr', h => by
    rw [List.any_cons] at h
    simp only [frameFrom]
    cases hd : d.2 with
    | setFrame r off => rfl
    | _ => rw [hd] at h; simp only [Dir.isFrame, Bool.false_or] at h; exact frameFrom_any l _ _ h

theorem frameFrom_none : ∀ (l : List (Int × Dir)) (fr : Nat × Int),
    l.any (fun d => d.2.isFrame) = false → frameFrom fr l = fr
  | [], _, _ => rfl
  | d :: l, fr, h => by
    rw [List.any_cons] at h
    simp only [frameFrom]
    cases hd : d.2 with
    | setFrame r off => rw [hd] at h; simp [Dir.isFrame] at h
    | _ => rw [hd] at h; simp only [Dir.isFrame, Bool.false_or] at h; exact frameFrom_none l _ h

theorem frame_eq : ∀ l : List (Int × Dir), frame l = frameFrom (0, 0) l
  | [] => rfl
  | d :: l => by
    rw [frame]
    split
    · rename_i h
      rw [frame_eq l, frameFrom]
      exact frameFrom_any l _ _ h
    · rename_i h
      rw [frameFrom, frameFrom_none l _ (by rwa [Bool.not_eq_true] at h)]
      cases d.2 <;> rfl

/-- The information after directives. -/
def Info.after (i : Info) (l : List (Int × Dir)) : Info :=
  ⟨i.handler, (frameFrom (i.framereg, i.frameoff) l).1, (frameFrom (i.framereg, i.frameoff) l).2, (l.map codeOf).reverse ++ i.codes, i.prolog⟩

theorem ops_recorded : ∀ (l : List (Int × Dir)) (s : St) (i : Info), (∀ d ∈ l, d.2.isOp = true) → s.proc = some i → s.prologDone = false →
    s.dirs l = { s with proc := some (i.after l) }
  | [], s, i, _, hp, _ => by
    cases s; simp only [St.dirs, List.foldl_nil, frameFrom, Info.after] at *; simp [hp]
  | d :: l, s, i, ho, hp, hd => by
    have hop := ho d List.mem_cons_self
    have step : ∃ i' : Info, s.dir d.1 d.2 = { s with proc := some i' } ∧ i'.codes = codeOf d :: i.codes ∧
        (i'.framereg, i'.frameoff) = (match d.2 with | .setFrame r off => (r, off) | _ => (i.framereg, i.frameoff)) ∧
        i'.handler = i.handler ∧ i'.prolog = i.prolog := by
      cases hx : d.2 with
      | pushReg r => exact ⟨{ i with codes := codeOf d :: i.codes }, by simp [St.dir, St.checked, hp, hd, St.addCode, codeOf, hx], rfl, rfl, rfl, rfl⟩
      | setFrame r off => exact ⟨⟨i.handler, r, off, codeOf d :: i.codes, i.prolog⟩, by simp [St.dir, St.checked, hp, hd, St.addCode, codeOf, hx], rfl, rfl, rfl, rfl⟩
      | allocStack n => exact ⟨{ i with codes := codeOf d :: i.codes }, by simp [St.dir, St.checked, hp, hd, St.addCode, codeOf, hx], rfl, rfl, rfl, rfl⟩
      | saveReg r off => exact ⟨{ i with codes := codeOf d :: i.codes }, by simp [St.dir, St.checked, hp, hd, St.addCode, codeOf, hx], rfl, rfl, rfl, rfl⟩
      | saveXmm r off => exact ⟨{ i with codes := codeOf d :: i.codes }, by simp [St.dir, St.checked, hp, hd, St.addCode, codeOf, hx], rfl, rfl, rfl, rfl⟩
      | pushFrame a => exact ⟨{ i with codes := codeOf d :: i.codes }, by simp [St.dir, St.checked, hp, hd, St.addCode, codeOf, hx], rfl, rfl, rfl, rfl⟩
      | procFrame h => rw [hx] at hop; simp [Dir.isOp] at hop
      | endProlog => rw [hx] at hop; simp [Dir.isOp] at hop
      | endProc => rw [hx] at hop; simp [Dir.isOp] at hop
    obtain ⟨i', h1, h2, h3, h4, h5⟩ := step
    have ih := ops_recorded l { s with proc := some i' } i' (fun x hx => ho x (List.mem_cons_of_mem _ hx)) rfl hd
    have e : s.dirs (d :: l) = St.dirs { s with proc := some i' } l := by
      simp only [St.dirs, List.foldl_cons]; rw [h1]
    rw [e, ih]
    simp only [Info.after, frameFrom, h3, h2, h4, h5, List.map_cons, List.reverse_cons, List.append_assoc, List.cons_append, List.nil_append]

/-- The information of a procedure. -/
def infoOf (h : Bool) (e : Int) (l : List (Int × Dir)) : Info :=
  ⟨h, (frame l).1, (frame l).2, (l.map codeOf).reverse, e⟩

theorem proc_recorded (s : St) (hs : s.proc = none) (h : Bool) (start e z : Int) (l : List (Int × Dir)) (hl : ∀ d ∈ l, d.2.isOp = true) :
    s.dirs ((start, .procFrame h) :: l ++ [(e, .endProlog), (z, .endProc)]) =
      { s with proc := none, prologDone := false, out := s.out ++ [infoOf h e l] } := by
  have e1 : s.dirs ((start, .procFrame h) :: l ++ [(e, .endProlog), (z, .endProc)]) =
      ((St.dirs { s with proc := some (Info.fresh h), prologDone := false } l).dir e .endProlog).dir z .endProc := by
    simp only [St.dirs, List.cons_append, List.foldl_cons, List.foldl_append, List.foldl_nil]
    rw [show s.dir start (.procFrame h) = { s with proc := some (Info.fresh h), prologDone := false } by simp [St.dir, hs]]
  rw [e1, ops_recorded l _ (Info.fresh h) hl rfl rfl]
  simp only [St.dir, St.checked, Info.fresh, Info.after, infoOf, frame_eq]
  simp

theorem codeOf_good (start e : Int) (d : Int × Dir) (ho : d.2.isOp = true) (hf : d.2.fits) (hp : start ≤ d.1 ∧ d.1 ≤ e) (he : e - start ≤ 255)
    (herr : (calcLen (codeOf d)).2.2 = []) : Good start (codeOf d) (d.1 - start).toNat d.2.says := by
  obtain ⟨p, x⟩ := d
  have hpos : ((p - start) % 256).toNat = (p - start).toNat := by simp only at hp; omega
  rw [← hpos]
  cases x with
  | pushReg r => simp only [codeOf, Nat.mod_eq_of_lt (show r < 16 from hf)] at *; exact good_push start p r hf
  | setFrame r off => simp only [codeOf, Nat.mod_eq_of_lt (show r < 16 from hf)] at *; exact good_setFrame start p off r hf
  | allocStack n => exact good_alloc start p n herr hf
  | saveReg r off => simp only [codeOf, Nat.mod_eq_of_lt (show r < 16 from hf.1)] at *; exact good_save start p off r hf.1 herr hf.2
  | saveXmm r off => simp only [codeOf, Nat.mod_eq_of_lt (show r < 16 from hf.1)] at *; exact good_saveXmm start p off r hf.1 herr hf.2
  | pushFrame a => exact good_pushFrame start p a
  | procFrame h => simp [Dir.isOp] at ho
  | endProlog => simp [Dir.isOp] at ho
  | endProc => simp [Dir.isOp] at ho

theorem readSlots_pad (n K : Nat) (hn : n = K) (m : Nat) (hm : m ≤ K) : ∃ f, n = f + m := ⟨n - m, by omega⟩

theorem frameErrs_nil (off : Int) (h : frameErrs off = []) : 0 ≤ off ∧ off ≤ 240 ∧ off % 16 = 0 := by
  unfold frameErrs at h
  split at h
  · simp at h
  · split at h
    · simp at h
    · omega

theorem info_read (h : Bool) (start e : Int) (l : List (Int × Dir)) (ho : ∀ d ∈ l, d.2.isOp = true) (hf : ∀ d ∈ l, d.2.fits)
    (hp : ∀ d ∈ l, start ≤ d.1 ∧ d.1 ≤ e) (herr : (infoOf h e l).errs start = []) (rest : List Nat) :
    readInfo ((infoOf h e l).bytes start ++ rest) =
      some (⟨h, (e - start).toNat, (frame l).1 % 16, (frame l).2.toNat, l.reverse.map (fun d => ((d.1 - start).toNat, d.2.says))⟩, rest) := by
  unfold Info.errs at herr
  simp only [List.append_eq_nil_iff] at herr
  obtain ⟨⟨⟨⟨e1, e2⟩, e3⟩, e4⟩, _⟩ := herr
  have hpl : 0 ≤ e - start ∧ e - start ≤ 255 := by
    by_cases hc : (infoOf h e l).prolog - start < 0 ∨ (infoOf h e l).prolog - start > 255
    · rw [if_pos hc] at e3; simp at e3
    · simp only [infoOf] at hc; omega
  have hcnt : (infoOf h e l).count ≤ 255 := by
    by_cases hc : (infoOf h e l).count > 255
    · rw [if_pos hc] at e4; simp at e4
    · omega
  have hfo : 0 ≤ (frame l).2 ∧ (frame l).2 ≤ 240 ∧ (frame l).2 % 16 = 0 := frameErrs_nil _ e2
  have hce : ∀ d ∈ l, (calcLen (codeOf d)).2.2 = [] := by
    intro d hd
    rw [List.flatten_eq_nil_iff] at e1
    apply e1
    simp only [infoOf, Info.sizes, List.mem_map, List.mem_reverse]
    exact ⟨_, ⟨_, ⟨d, hd, rfl⟩, rfl⟩, rfl⟩
  obtain ⟨K, g1, g2, g3, _, g5⟩ := good_list start (l.reverse.map (fun d => (codeOf d, (d.1 - start).toNat, d.2.says))) (by
    intro x hx
    simp only [List.mem_map, List.mem_reverse] at hx
    obtain ⟨d, hd, rfl⟩ := hx
    exact codeOf_good start e d (ho d hd) (hf d hd) (hp d hd) hpl.2 (hce d hd))
  have hsz : (infoOf h e l).sizes = (l.reverse.map (fun d => (codeOf d, (d.1 - start).toNat, d.2.says))).map (fun x => calcLen x.1) := by
    simp only [Info.sizes, infoOf, List.map_reverse, List.map_map]
    rfl
  have hc : (infoOf h e l).count = K := by
    unfold Info.count
    rw [hsz, g1]; omega
  rw [← hsz] at g3 g5
  have hm1 : ((e - start) % 256).toNat = (e - start).toNat := by omega
  have hm2 : K % 256 = K := by omega
  obtain ⟨f, hK⟩ := readSlots_pad K K rfl _ g2
  unfold Info.bytes
  simp only [Info.header, hc, List.cons_append, List.nil_append, List.append_assoc, List.length_cons, g3, hm2]
  have hpad : (4 - (2 * K + 1 + 1 + 1 + 1) % 4) % 4 = K % 2 * 2 := by omega
  rw [hpad]
  simp only [readInfo]
  have hread := g5 f (List.replicate (K % 2 * 2) 0 ++ ((if (infoOf h e l).handler then [0, 0, 0, 0] else []) ++ rest))
  rw [← hK] at hread
  have hf16 : ((frame l).2 % 256).toNat / 16 * 16 = (frame l).2.toNat := by omega
  have hdrop : ∀ X : List Nat, List.drop (K % 2 * 2) (List.replicate (K % 2 * 2) 0 ++ X) = X := by
    intro X
    rw [List.drop_append_of_le_length (by simp)]
    simp
  have hops : ((l.reverse.map (fun d => (codeOf d, (d.1 - start).toNat, d.2.says))).map (fun x => x.2)) =
      l.reverse.map (fun d => ((d.1 - start).toNat, d.2.says)) := by simp [List.map_map]
  have hb1 : ((frame l).2.toNat + (frame l).1 % 16) % 16 = (frame l).1 % 16 := by omega
  have hb2 : ((frame l).2.toNat + (frame l).1 % 16) / 16 * 16 = (frame l).2.toNat := by omega
  have hi1 : (infoOf h e l).prolog = e := rfl
  have hi2 : (infoOf h e l).frameoff = (frame l).2 := rfl
  have hi3 : (infoOf h e l).framereg = (frame l).1 := rfl
  have hi4 : (infoOf h e l).handler = h := rfl
  simp only [hi1, hi2, hi3, hi4, hf16, hm1] at hread ⊢
  cases h with
  | false =>
    simp only [Bool.false_eq_true, ↓reduceIte, List.nil_append] at hread ⊢
    rw [hread]
    simp [hdrop, hops, hb1, hb2]
  | true =>
    simp only [↓reduceIte] at hread ⊢
    rw [hread]
    simp only [hops, Option.bind_some, hdrop, hb1, hb2]
    simp

theorem expand_ok (c : Code) (len span : Nat) (v : Int) (h : ¬ v < 0) : (expand c len span v).2.2 = false := by
  unfold expand
  rw [if_neg h]
  by_cases h1 : span = 1
  · rw [if_pos h1]
    by_cases h2 : v ≤ 524280 <;> simp [h2]
  · rw [if_neg h1]
    by_cases h2 : c.op = 4 ∧ span = 2
    · rw [if_pos h2]
    · rw [if_neg h2]
      by_cases h3 : c.op = 8 ∧ span = 3
      · rw [if_pos h3]
      · rw [if_neg h3]

theorem sized_ok (c : Code) (len span : Nat) (low high mask : Int) (h0 : ¬ c.off < 0) (h1 : ¬ c.off < low) (h2 : c.off % (mask + 1) = 0) :
    (sized c len span low high mask).2.2 = [] := by
  unfold sized
  by_cases h : c.off > high
  · simp [h, expand_ok c len span c.off h0, h1, h2]
  · simp [h, h1, h2]

theorem expand_le (c : Code) (len span : Nat) (v : Int) (h : len + (if span = 1 then 4 else 2) ≤ 6) : (expand c len span v).2.1 ≤ 6 := by
  unfold expand
  by_cases h0 : v < 0
  · rw [if_pos h0]; simp only; split at h <;> omega
  rw [if_neg h0]
  by_cases h1 : span = 1
  · rw [if_pos h1]
    rw [if_pos h1] at h
    by_cases h3 : c.op = 2 ∧ v > 128 <;> by_cases h2 : v ≤ 524280 <;> simp [h2, h3] <;> omega
  · rw [if_neg h1]
    rw [if_neg h1] at h
    by_cases h2 : c.op = 4 ∧ span = 2
    · rw [if_pos h2]; exact h
    · rw [if_neg h2]
      by_cases h3 : c.op = 8 ∧ span = 3
      · rw [if_pos h3]; exact h
      · rw [if_neg h3]; simp only; omega

theorem sized_le (c : Code) (len span : Nat) (low high mask : Int) (h : len + (if span = 1 then 4 else 2) ≤ 6) :
    (sized c len span low high mask).2.1 ≤ 6 := by
  unfold sized
  by_cases h1 : c.off > high
  · simp only [h1, if_true]; exact expand_le c len span c.off h
  · simp only [h1, if_false]; split at h <;> omega

/-- What may be told is not refused. -/
theorem calcLen_valid (d : Int × Dir) (ho : d.2.isOp = true) (hv : d.2.valid) : (calcLen (codeOf d)).2.2 = [] ∧ d.2.fits := by
  obtain ⟨p, x⟩ := d
  cases x with
  | pushReg r => exact ⟨by simp [codeOf, calcLen], hv⟩
  | setFrame r off => exact ⟨by simp [codeOf, calcLen], hv.1⟩
  | allocStack n =>
    obtain ⟨h1, h2, h3⟩ := hv
    exact ⟨sized_ok ⟨p, 2, 0, n⟩ 2 1 8 128 7 (by simp only; omega) (by simp only; omega) (by simp only; omega), h2⟩
  | saveReg r off =>
    obtain ⟨h0, h1, h2, h3⟩ := hv
    exact ⟨sized_ok ⟨p, 4, r % 16, off⟩ 4 2 0 524280 7 (by simp only; omega) (by simp only; omega) (by simp only; omega), h0, h2⟩
  | saveXmm r off =>
    obtain ⟨h0, h1, h2, h3⟩ := hv
    exact ⟨sized_ok ⟨p, 8, r % 16, off⟩ 4 3 0 1048560 15 (by simp only; omega) (by simp only; omega) (by simp only; omega), h0, h2⟩
  | pushFrame a => exact ⟨by simp [codeOf, calcLen], trivial⟩
  | procFrame h => simp [Dir.isOp] at ho
  | endProlog => simp [Dir.isOp] at ho
  | endProc => simp [Dir.isOp] at ho

theorem calcLen_le (c : Code) : (calcLen c).2.1 ≤ 6 := by
  unfold calcLen
  split
  · exact sized_le _ _ _ _ _ _ (by simp)
  · split
    · exact sized_le _ _ _ _ _ _ (by simp)
    · split
      · exact sized_le _ _ _ _ _ _ (by simp)
      · simp

theorem sum_le (l : List (Code × Nat × List Err)) (h : ∀ x ∈ l, x.2.1 ≤ 6) : (l.map (fun x => x.2.1)).sum ≤ 6 * l.length := by
  induction l with
  | nil => simp
  | cons x l ih =>
    have h1 := h x List.mem_cons_self
    have h2 := ih (fun y hy => h y (List.mem_cons_of_mem _ hy))
    simp only [List.map_cons, List.sum_cons, List.length_cons]; omega

theorem frameFrom_valid : ∀ (l : List (Int × Dir)) (fr : Nat × Int), (∀ d ∈ l, d.2.valid) →
    (0 ≤ fr.2 ∧ fr.2 ≤ 240 ∧ fr.2 % 16 = 0) →
    0 ≤ (frameFrom fr l).2 ∧ (frameFrom fr l).2 ≤ 240 ∧ (frameFrom fr l).2 % 16 = 0
  | [], _, _, h => h
  | d :: l, fr, hv, h => by
    rw [frameFrom]
    refine frameFrom_valid l _ (fun x hx => hv x (List.mem_cons_of_mem _ hx)) ?_
    have := hv d List.mem_cons_self
    cases hd : d.2 with
    | setFrame r off => rw [hd] at this; exact this.2
    | _ => exact h

theorem info_accepted (h : Bool) (start e : Int) (l : List (Int × Dir)) (ho : ∀ d ∈ l, d.2.isOp = true) (hv : ∀ d ∈ l, d.2.valid)
    (hp : ∀ d ∈ l, start ≤ d.1 ∧ d.1 ≤ e) (he : start ≤ e ∧ e - start ≤ 255) (hl : l.length ≤ 85) : (infoOf h e l).errs start = [] := by
  have hsz : (infoOf h e l).sizes = (l.reverse.map (fun d => (codeOf d, (d.1 - start).toNat, d.2.says))).map (fun x => calcLen x.1) := by
    simp only [Info.sizes, infoOf, List.map_reverse, List.map_map]
    rfl
  obtain ⟨K, g1, g2, g3, g4, g5⟩ := good_list start (l.reverse.map (fun d => (codeOf d, (d.1 - start).toNat, d.2.says))) (by
    intro x hx
    simp only [List.mem_map, List.mem_reverse] at hx
    obtain ⟨d, hd, rfl⟩ := hx
    have := calcLen_valid d (ho d hd) (hv d hd)
    exact codeOf_good start e d (ho d hd) this.2 (hp d hd) he.2 this.1)
  rw [← hsz] at g4
  have hcount : (infoOf h e l).count ≤ 255 := by
    unfold Info.count
    have := sum_le (infoOf h e l).sizes (by
      intro x hx
      simp only [Info.sizes, List.mem_map] at hx
      obtain ⟨c, _, rfl⟩ := hx
      exact calcLen_le c)
    have hlen : (infoOf h e l).sizes.length = l.length := by simp [Info.sizes, infoOf]
    rw [hlen] at this
    omega
  have hframe : frameErrs (infoOf h e l).frameoff = [] := by
    have := frameFrom_valid l (0, 0) hv (by simp)
    rw [← frame_eq] at this
    show frameErrs (frame l).2 = []
    unfold frameErrs
    rw [if_neg (by omega), if_neg (by omega)]
  have hce : ((infoOf h e l).sizes.map (fun x => x.2.2)).flatten = [] := by
    rw [List.flatten_eq_nil_iff]
    intro y hy
    simp only [infoOf, Info.sizes, List.mem_map, List.mem_reverse] at hy
    obtain ⟨_, ⟨_, ⟨d, hd, rfl⟩, rfl⟩, rfl⟩ := hy
    exact (calcLen_valid d (ho d hd) (hv d hd)).1
  unfold Info.errs
  rw [hce, hframe, g4, if_neg (by simp only [infoOf]; omega), if_neg (by omega)]
  rfl

/-! ## The section -/

theorem bytes_four (i : Info) (start : Int) : (i.bytes start).length % 4 = 0 := by
  unfold Info.bytes
  cases i.handler <;> simp <;> omega

theorem xdata_add (x : XData) (i : Info) (start : Int) (hx : x.data.length % 4 = 0) :
    x.add i start = ⟨x.data ++ i.bytes start, x.refs ++ [x.data.length]⟩ := by
  unfold XData.add
  rw [hx]; simp

/-- Procedures one after the other. -/
def XData.addAll (x : XData) (l : List (Info × Int)) : XData := l.foldl (fun x p => x.add p.1 p.2) x

theorem addAll_points : ∀ (l : List (Info × Int)) (x : XData), x.data.length % 4 = 0 →
    (x.addAll l).data.length % 4 = 0 ∧ (∃ r, (x.addAll l).data = x.data ++ r) ∧ (∃ r, (x.addAll l).refs = x.refs ++ r ∧ r.length = l.length ∧
      ∀ k, (hk : k < l.length) → (hr : k < r.length) → ∃ rest, (x.addAll l).data.drop r[k] = (l[k]).1.bytes (l[k]).2 ++ rest)
  | [], x, h => ⟨h, ⟨[], by simp [XData.addAll]⟩, [], by simp [XData.addAll], rfl, by intro k hk; simp at hk⟩
  | p :: l, x, h => by
    have e : x.addAll (p :: l) = XData.addAll (x.add p.1 p.2) l := rfl
    have ha := xdata_add x p.1 p.2 h
    have h4 : (x.add p.1 p.2).data.length % 4 = 0 := by
      rw [ha]; have := bytes_four p.1 p.2
      simp only [List.length_append]; omega
    obtain ⟨a1, ⟨r1, a2⟩, r2, a3, a4, a5⟩ := addAll_points l (x.add p.1 p.2) h4
    rw [← e] at a1 a2 a3 a5
    rw [ha] at a2 a3
    refine ⟨a1, ⟨p.1.bytes p.2 ++ r1, by rw [a2]; simp⟩, x.data.length :: r2, by rw [a3]; simp, by simp [a4], ?_⟩
    intro k hk hr
    cases k with
    | zero =>
      refine ⟨r1, ?_⟩
      simp only [List.getElem_cons_zero]
      rw [a2]; simp
    | succ k =>
      simp only [List.getElem_cons_succ]
      exact a5 k (by simpa using hk) (by simpa using hr)

end Verif.Unwind
