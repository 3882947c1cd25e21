import Verif.Value.ScanLemmas
import Verif.Value.Keep
/-
Lemmas about finalization and output of values.
-/
set_option linter.unusedSimpArgs false
namespace Verif.Value
open Verif.Intnum Verif.Expr

/-! ### The mask -/

/-- The mask has the value 2^size - 1 for every size the 8-bit field holds. -/
theorem mask_all : ∀ size : Fin 256, val (mask size) = 2 ^ (size : Nat) - 1 := by decide +kernel

theorem mask_val (size : Nat) (h : size < 256) : val (mask size) = 2 ^ size - 1 := mask_all ⟨size, h⟩

/-- `Fits` as a check. -/
def fitsB : Intnum → Bool
  | .L l => decide (-(2 ^ 32) < l.toInt ∧ l.toInt < 2 ^ 32)
  | .BV v => decide (v.toInt < -255 ∨ 255 < v.toInt)

theorem fitsB_iff (i : Intnum) : fitsB i = true ↔ Fits i := by
  cases i <;> simp [fitsB, Fits]

theorem mask_fits_all : ∀ size : Fin 256, fitsB (mask size) = true := by decide +kernel

theorem mask_fits (size : Nat) (h : size < 256) : Fits (mask size) := (fitsB_iff _).1 (mask_fits_all ⟨size, h⟩)

theorem isMask_eval (ρ : Env) (size : Nat) (h : size < 256) (t : Item) (hg : Good ρ t) (hm : isMask size t = true) :
    (eval ρ t).setWidth size = BitVec.allOnes size ∧ t.isInt = true := by
  cases t with
  | int i =>
    simp only [isMask, beq_iff_eq] at hm
    have := (compare_order i (mask size) hg (mask_fits size h)).2.1.1 hm
    rw [mask_val size h] at this
    refine ⟨?_, rfl⟩
    simp only [eval, this]
    apply BitVec.eq_of_toNat_eq
    rw [BitVec.toNat_setWidth, BitVec.toNat_ofInt, BitVec.toNat_allOnes]
    have e : ((2 : Int) ^ size - 1) = ((2 ^ size - 1 : Nat) : Int) := by
      rw [Nat.cast_sub (Nat.one_le_two_pow)]; push_cast; rfl
    have hlt : 2 ^ size - 1 < 2 ^ 256 := by
      have := Nat.pow_lt_pow_right (a := 2) (by omega) h
      omega
    rw [e]
    have e2 : (((2 ^ size - 1 : Nat) : Int) % ((2 ^ 256 : Nat) : Int)).toNat = 2 ^ size - 1 := by
      rw [← Int.natCast_mod, Int.toNat_natCast, Nat.mod_eq_of_lt hlt]
    rw [e2, Nat.mod_eq_of_lt]
    have := Nat.one_le_two_pow (n := size)
    omega
  | _ => simp [isMask] at hm

theorem and_filter (ρ : Env) (size : Nat) (h : size < 256) (ts : List Item) (hg : GoodL ρ ts) :
    (opVal ρ .AND (evalL ρ (ts.filter fun t => !isMask size t))).setWidth size =
      (opVal ρ .AND (evalL ρ ts)).setWidth size := by
  induction ts with
  | nil => rfl
  | cons t ts ih =>
    have ih := ih hg.2
    simp only [opVal] at ih ⊢
    cases hm : isMask size t with
    | true =>
      rw [List.filter_cons_of_neg (by simp [hm]), ih]
      simp only [evalL, List.foldr_cons]
      rw [BitVec.setWidth_and, (isMask_eval ρ size h t hg.1 hm).1, BitVec.allOnes_and]
    | false =>
      rw [List.filter_cons_of_pos (by simp [hm])]
      simp only [evalL, List.foldr_cons]
      rw [BitVec.setWidth_and, BitVec.setWidth_and, ih]

theorem filter_length (size : Nat) (ts : List Item) (ρ : Env) (h : size < 256) (hg : GoodL ρ ts) :
    ts.length ≤ (ts.filter fun t => !isMask size t).length + (ints ts).length := by
  induction ts with
  | nil => simp
  | cons t ts ih =>
    have ih := ih hg.2
    cases hm : isMask size t with
    | true =>
      rw [List.filter_cons_of_neg (by simp [hm])]
      have := (isMask_eval ρ size h t hg.1 hm).2
      cases t <;> simp [Item.isInt] at this
      simp only [ints, List.filterMap_cons, Item.int?, List.length_cons] at ih ⊢
      omega
    | false =>
      rw [List.filter_cons_of_pos (by simp [hm])]
      have : (ints ts).length ≤ (ints (t :: ts)).length := by
        simp only [ints, List.filterMap_cons]
        split
        · exact Nat.le_refl _
        · simp
      simp only [List.length_cons] at ih ⊢
      omega

theorem stripMask_ok (ρ : Env) (w : Place) (y : Syms) (size : Nat) (h : size < 256) (n : Node) (hn : TInv ρ w y n.item)
    (h1 : n.op ≠ .IDENT → OneInt n) :
    TInv ρ w y (stripMask size n).1.item ∧
    ((stripMask size n).1.eval ρ).setWidth size = (n.eval ρ).setWidth size ∧
    ((stripMask size n).2 = false → (stripMask size n).1.eval ρ = n.eval ρ) := by
  obtain ⟨op, ts⟩ := n
  by_cases hop : op = .AND
  · subst hop
    have hlen : 2 ≤ ts.length := hn.good.1
    have hg : GoodL ρ ts := hn.good.2.2
    have hone : (ints ts).length ≤ 1 := h1 (by simp) rfl
    have hfl := filter_length size ts ρ h hg
    have hsub : ∀ t ∈ ts.filter fun t => !isMask size t, TInv ρ w y t := by
      intro t ht
      have hm := (List.mem_filter.1 ht).1
      exact ⟨(goodL_iff ρ ts).1 hg t hm, (saneL_iff ts).1 hn.sane.2.2 t hm, (curOk_expr ρ w y _ ts).1 hn.cur t hm⟩
    have hnw : NoWrtL (ts.filter fun t => !isMask size t) := by
      rw [noWrtL_iff]
      intro t ht
      exact (noWrtL_iff ts).1 (hn.sane.1 (by simp) (by simp) (by simp)) t (List.mem_filter.1 ht).1
    have hand := and_filter ρ size h ts hg
    generalize hfs : (ts.filter fun t => !isMask size t) = fs at hfl hsub hnw hand
    have e : (stripMask size ⟨.AND, ts⟩) = (⟨if fs.length = 1 then .IDENT else .AND, fs⟩, ts.any (isMask size)) := by
      simp only [stripMask, if_true, hfs]
    rw [e]
    dsimp only
    have hEval : (Node.mk (if fs.length = 1 then Op.IDENT else .AND) fs).eval ρ = opVal ρ .AND (evalL ρ fs) := by
      by_cases hl : fs.length = 1
      · obtain ⟨t, rfl⟩ := List.length_eq_one_iff.1 hl
        simp only [Node.eval, Node.item, eval, evalL, hl, if_true, opVal, List.foldr]
        rw [show (-1 : Word) = BitVec.allOnes 256 from by decide, BitVec.and_allOnes]
      · rw [if_neg hl]; rfl
    refine ⟨⟨⟨?_, ?_, (goodL_iff ρ _).2 fun t ht => (hsub t ht).good⟩, ⟨fun _ _ _ => hnw, ?_, (saneL_iff _).2 fun t ht => (hsub t ht).sane⟩,
      (curOk_expr ρ w y _ _).2 fun t ht => (hsub t ht).cur⟩, ?_, ?_⟩
    · by_cases hl : fs.length = 1
      · rw [if_pos hl]; exact hl
      · rw [if_neg hl]; show 2 ≤ fs.length; omega
    · by_cases hl : fs.length = 1
      · rw [if_pos hl]; simp
      · rw [if_neg hl]; simp
    · by_cases hl : fs.length = 1
      · rw [if_pos hl]; simp
      · rw [if_neg hl]; simp
    · rw [hEval]; exact hand
    · intro ha
      have hall : fs = ts := by
        rw [← hfs]
        apply List.filter_eq_self.2
        intro t ht
        rw [List.any_eq_false] at ha
        simpa using ha t ht
      rw [hEval, hall]; rfl
  · have e : stripMask size ⟨op, ts⟩ = (⟨op, ts⟩, false) := by simp only [stripMask, if_neg hop]
    rw [e]; exact ⟨hn, rfl, fun _ => rfl⟩

/-! ### Splitting -/

theorem R_init (ρ : Env) (w : Place) : R ρ w .init = 0 := by simp [R, relVal, wrtVal, Parts.init]
theorem pinv_init : PInv .init := fun _ => ⟨rfl, rfl, rfl⟩

theorem meaning_eq (ρ : Env) (w : Place) (v : Value) : meaning ρ w v = absVal ρ v.abs + R ρ w v.p := by
  simp only [meaning, R]; grind

theorem finish_ok (ρ : Env) (w : Place) (y : Syms) (base : Nat → Word) (ag : ρ.Agrees y.ctx base) (p : Parts) (nw : Bool) (t : Item)
    (v : Value) (hg : Good ρ t) (hs : ∀ k ∈ (finish y p nw t).log, k.Sound) (h : (finish y p nw t).out = .ok v) :
    absVal ρ v.abs = eval ρ t ∧ v.p = p ∧ v.noWarn = nw ∧ ∀ a, v.abs = some a → Good ρ a.item := by
  unfold finish at h hs
  split at h
  · rename_i op ts
    dsimp only [level] at h hs
    cases hm : (simplify y.ctx y.nequ false false ⟨op, ts⟩).out with
    | error f => rw [hm] at h; cases h
    | ok n =>
      rw [hm] at h hs
      dsimp only at h hs
      obtain ⟨g, hv⟩ := simplify_ok ρ y.ctx base ag y.nequ false false ⟨op, ts⟩ hg hs n hm
      simp only [Except.ok.injEq] at h
      subst h
      refine ⟨?_, rfl, rfl, ?_⟩
      · dsimp only
        obtain ⟨nop, nts⟩ := n
        split
        · rename_i i rest h1 h2
          dsimp only at h1 h2
          subst h1; subst h2
          split
          · rename_i hz
            have hl : rest = [] := by
              have := g.1
              simp only [Arity, List.length_cons] at this
              exact List.length_eq_zero_iff.1 (by omega)
            subst hl
            have : Fits i := g.2.2.1
            have := isZero_bv this hz
            have hv' : bv i = eval ρ (.expr op ts) := hv
            simp only [absVal]
            rw [← hv', this]
          · exact hv
        · exact hv
      · intro a ha
        dsimp only at ha
        split at ha
        · split at ha
          · cases ha
          · cases ha; exact g
        · cases ha; exact g
  · cases h

theorem scanFinish_ok (ρ : Env) (w : Place) (y : Syms) (base : Nat → Word) (ag : ρ.Agrees y.ctx base)
    (hhere : ρ.sym y.here = w.cur) (hwrt : ∀ a b, ρ.wrt a b = a - w.frame b) (nw : Bool) (t : Item)
    (v : Value) (ht : TInv ρ w y t) (hs : ∀ k ∈ (scanFinish y nw t).log, k.Sound) (h : (scanFinish y nw t).out = .ok v) :
    meaning ρ w v = eval ρ t ∧ v.noWarn = nw ∧ ∀ a, v.abs = some a → Good ρ a.item := by
  unfold scanFinish at h hs
  cases hx : scan y (height t + 1) false Parts.init t with
  | error e => rw [hx] at h; cases h
  | ok r =>
    obtain ⟨p, t'⟩ := r
    rw [hx] at h hs
    dsimp only at h hs
    have hr := scan_ok ρ w y hhere hwrt _ _ _ _ _ _ pinv_init ht hx
    obtain ⟨a, b, c, d⟩ := finish_ok ρ w y base ag p nw t' v hr.tinv.good hs h
    refine ⟨?_, c, d⟩
    have := hr.value
    rw [R_init] at this
    rw [meaning_eq, a, b, this]
    grind

theorem sane_sub (op : Op) (ts : List Item) (h : Sane (.expr op ts)) : ∀ t ∈ ts, Sane t := (saneL_iff ts).1 h.2.2

theorem split_ok (ρ : Env) (w : Place) (y : Syms) (base : Nat → Word) (ag : ρ.Agrees y.ctx base)
    (hhere : ρ.sym y.here = w.cur) (hwrt : ∀ a b, ρ.wrt a b = a - w.frame b) (nw : Bool) (e : Node)
    (v : Value) (ht : TInv ρ w y e.item) (hs : ∀ k ∈ (split y nw e).log, k.Sound) (h : (split y nw e).out = .ok v) :
    meaning ρ w v = e.eval ρ ∧ v.noWarn = nw ∧ ∀ a, v.abs = some a → Good ρ a.item := by
  obtain ⟨op, ts⟩ := e
  have hi : ∀ t rest, op = .IDENT → ts = t :: rest → ts = [t] := by
    intro t rest h1 h2
    subst h1; subst h2
    have := ht.good.1
    simp only [Arity, List.length_cons] at this
    rw [List.length_eq_zero_iff.1 (show rest.length = 0 by omega)]
  unfold split at h hs
  split at h
  · rename_i i rest h1 h2
    dsimp only at h1 h2
    have h3 := hi _ _ h1 h2
    subst h1; subst h3
    simp only [Except.ok.injEq] at h
    subst h
    rw [meaning_eq, R_init]
    dsimp only
    by_cases hz : isZero i = true
    · rw [if_pos hz]
      refine ⟨?_, rfl, by simp⟩
      have : Fits i := ht.good.2.2.1
      have := isZero_bv this hz
      show (0 : Word) + 0 = bv i
      rw [this]; rfl
    · rw [if_neg hz]
      refine ⟨by simp only [absVal]; grind, rfl, ?_⟩
      intro a ha; cases ha; exact ht.good
  · rename_i r rest h1 h2
    simp only [Except.ok.injEq] at h
    subst h
    rw [meaning_eq, R_init]
    refine ⟨by simp only [absVal]; grind, rfl, ?_⟩
    intro a ha; cases ha; exact ht.good
  · rename_i s f rest h1 h2
    simp only [Except.ok.injEq] at h
    subst h
    rw [meaning_eq, R_init]
    refine ⟨by simp only [absVal]; grind, rfl, ?_⟩
    intro a ha; cases ha; exact ht.good
  · rename_i s rest h1 h2
    dsimp only at h1 h2
    have h3 := hi _ _ h1 h2
    subst h1; subst h3
    simp only [Except.ok.injEq] at h
    subst h
    rw [meaning_eq, R_rel ρ w _ s pinv_init rfl, R_init]
    refine ⟨?_, rfl, by simp⟩
    simp only [absVal, Node.eval, Node.item, eval, evalL, opVal]; grind
  · rename_i op' us rest h1 h2
    dsimp only at h1 h2
    have h3 := hi _ _ h1 h2
    have h4 : rest = [] := by rw [h2] at h3; simpa using h3
    subst h1; subst h4; subst h3
    have hst := stripTop_ok ρ (.expr op' us) ht.good.2.2.1
    have hsa : Sane (stripTop (.expr op' us)) := ((stripTop_keep Sane sane_sub).1 _).1 ht.sane.2.2.1
    have hcu : CurOk ρ w y (stripTop (.expr op' us)) :=
      ((stripTop_keep (CurOk ρ w y) (fun op ts h => (curOk_expr ρ w y op ts).1 h)).1 _).1
        ((curOk_expr ρ w y _ _).1 ht.cur _ (by simp))
    obtain ⟨a, b⟩ := scanFinish_ok ρ w y base ag hhere hwrt nw _ v ⟨hst.1, hsa, hcu⟩ hs h
    exact ⟨by rw [a, hst.2.1]; rfl, b⟩
  · cases h
  · rename_i op' ts' h1 h2 h3 h4 h5 h6
    have hs' : ∀ k ∈ (scanFinish y nw (.expr op ts)).log, k.Sound := by
      split at hs
      all_goals first
        | exact hs
        | (exfalso; simp_all; done)
    exact scanFinish_ok ρ w y base ag hhere hwrt nw _ v ht hs' h

/-- Finalization: what is accepted means the same. -/
theorem finalize_ok (ρ : Env) (w : Place) (y : Syms) (base : Nat → Word) (ag : ρ.Agrees y.ctx base)
    (hhere : ρ.sym y.here = w.cur) (hwrt : ∀ a b, ρ.wrt a b = a - w.frame b) (size : Nat) (hsize : size < 256) (e n : Node)
    (hg : Good ρ e.item) (hn : (simplify y.ctx y.nequ false false e).out = .ok n) (hsane : Sane n.item) (hcur : CurOk ρ w y n.item)
    (v : Value) (hs : ∀ k ∈ (finalize y size e).log, k.Sound) (h : (finalize y size e).out = .ok v) :
    (meaning ρ w v).setWidth size = (e.eval ρ).setWidth size ∧ (v.noWarn = false → meaning ρ w v = e.eval ρ) ∧
      ∀ a, v.abs = some a → Good ρ a.item := by
  have hn' : (level y e).1.out = .ok n := hn
  have hl : (level y e).1.log = (simplify y.ctx y.nequ false false e).log := rfl
  simp only [finalize] at h hs
  rw [hn'] at h hs
  dsimp only at h hs
  by_cases er : (level y e).2 = true
  · rw [if_pos er] at h; cases h
  · rw [if_neg er] at h hs
    dsimp only at h hs
    rw [hl] at hs
    have hs1 : ∀ k ∈ (simplify y.ctx y.nequ false false e).log, k.Sound := fun k hk => hs k (List.mem_append_left _ hk)
    obtain ⟨g, hv⟩ := simplify_ok ρ y.ctx base ag y.nequ false false e hg hs1 n hn
    obtain ⟨m1, m2, m3⟩ := stripMask_ok ρ w y size hsize n ⟨g, hsane, hcur⟩ (simplify_one _ _ _ e n hn)
    obtain ⟨s1, s2, s3⟩ := split_ok ρ w y base ag hhere hwrt _ _ v m1 (fun k hk => hs k (List.mem_append_right _ hk)) h
    refine ⟨by rw [s1, m2, hv], ?_, s3⟩
    intro hnw
    rw [s1, m3 (by rw [← s2]; exact hnw), hv]

end Verif.Value
