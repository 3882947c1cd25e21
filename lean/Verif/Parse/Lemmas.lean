import Verif.Parse.Spec
/-
Lemmas for Verif.Parse.Props: the loops of the parsers read the grammars.
-/
namespace Verif.Parse
open Verif.Intnum (Intnum Op createUint createInt)

/-- A parse function that has `N` steps reads the expressions `D`; tokens in `C` would continue one. -/
structure Reads (P : List Tok → R) (N : Nat) (D : List Tok → Tree → Prop) (C : Tok → Prop) : Prop where
  sound : ∀ toks e rest, P toks = .ok e rest → ∃ used, toks = used ++ rest ∧ used ≠ [] ∧ D used e
  complete : ∀ used rest e, (used ++ rest).length < N → D used e → (∀ t ∈ rest.head?, ¬ C t) →
    P (used ++ rest) = .ok e rest
  total : ∀ toks, toks.length < N → P toks ≠ .stuck

/-- Operands joined by operators, to the left. -/
inductive Chain (DL : List Tok → Tree → Prop) (isop : Tok → Option Op) (DR : List Tok → Tree → Prop) :
    List Tok → Tree → Prop
  | base {l : List Tok} {e : Tree} : DL l e → Chain DL isop DR l e
  | step {l r : List Tok} {t : Tok} {op : Op} {a b : Tree} : isop t = some op → Chain DL isop DR l a →
      DR r b → Chain DL isop DR (l ++ t :: r) (.bin op a b)

theorem loop_sound {DL DR : List Tok → Tree → Prop} {isop : Tok → Option Op} {right : List Tok → R} {N : Nat}
    {CR : Tok → Prop} (hr : Reads right N DR CR) (n : Nat) (e : Tree) (l toks : List Tok) (hl : Chain DL isop DR l e)
    (e' : Tree) (rest : List Tok) (h : loop isop right n e toks = .ok e' rest) :
    ∃ used, toks = used ++ rest ∧ Chain DL isop DR (l ++ used) e' := by
  induction n generalizing e l toks with
  | zero => cases h
  | succ n ih =>
    rcases toks with _ | ⟨t, toks⟩
    · simp only [loop, R.ok.injEq] at h
      obtain ⟨rfl, rfl⟩ := h
      exact ⟨[], rfl, by simpa using hl⟩
    · simp only [loop] at h
      split at h
      · simp only [R.ok.injEq] at h
        obtain ⟨rfl, rfl⟩ := h
        exact ⟨[], rfl, by simpa using hl⟩
      · rename_i op hop
        split at h
        · rename_i f rest' hf
          obtain ⟨u, hu, _, hd⟩ := hr.sound _ _ _ hf
          obtain ⟨u', hu', hc⟩ := ih (.bin op e f) (l ++ t :: u) rest' (.step hop hl hd) h
          refine ⟨t :: u ++ u', by rw [hu, hu']; simp, ?_⟩
          simpa using hc
        · cases h
        · cases h

theorem loop_total {DR : List Tok → Tree → Prop} {isop : Tok → Option Op} {right : List Tok → R} {N : Nat}
    {CR : Tok → Prop} (hr : Reads right N DR CR) (n : Nat) (e : Tree) (toks : List Tok) (hn : toks.length < n)
    (hN : toks.length ≤ N) : loop isop right n e toks ≠ .stuck := by
  induction n generalizing e toks with
  | zero => omega
  | succ n ih =>
    rcases toks with _ | ⟨t, toks⟩
    · simp [loop]
    · simp only [loop]
      split
      · simp
      · split
        · rename_i op hop f rest' hf
          obtain ⟨u, hu, _, hd⟩ := hr.sound _ _ _ hf
          have : toks.length = u.length + rest'.length := by rw [hu, List.length_append]
          simp only [List.length_cons] at hn hN
          exact ih _ _ (by omega) (by omega)
        · simp
        · rename_i hf
          simp only [List.length_cons] at hN
          exact absurd hf (hr.total toks (by omega))

theorem chain_complete {DL DR : List Tok → Tree → Prop} {isop : Tok → Option Op} {left right : List Tok → R} {N n : Nat}
    {CL CR : Tok → Prop} (hl : Reads left N DL CL) (hr : Reads right N DR CR) (hn : N ≤ n)
    (hop : ∀ t op, isop t = some op → ¬ CL t ∧ ¬ CR t) (l : List Tok) (e : Tree) (hc : Chain DL isop DR l e) :
    ∀ rest, (l ++ rest).length < N → (∀ t ∈ rest.head?, ¬ CL t ∧ ¬ CR t) →
      ∃ m, rest.length < m ∧ level n left isop right (l ++ rest) = loop isop right m e rest := by
  induction hc with
  | @base l e hd =>
    intro rest hlen hhead
    refine ⟨n, by simp only [List.length_append] at hlen; omega, ?_⟩
    unfold level
    rw [hl.complete l rest e hlen hd (fun t ht => (hhead t ht).1)]
  | @step l r t op a b ho _ hd ih =>
    intro rest hlen hhead
    have e1 : (l ++ t :: r) ++ rest = l ++ (t :: (r ++ rest)) := by simp
    rw [e1] at hlen ⊢
    obtain ⟨m, hm, hlev⟩ := ih (t :: (r ++ rest)) hlen (by
      intro t' ht'
      simp only [List.head?_cons, Option.mem_some_iff] at ht'
      subst ht'
      exact hop _ _ ho)
    rw [hlev]
    rcases m with _ | m
    · omega
    refine ⟨m, ?_, ?_⟩
    · simp only [List.length_cons, List.length_append] at hm; omega
    · simp only [loop, ho]
      rw [hr.complete r rest b (by simp only [List.length_cons, List.length_append] at hlen ⊢; omega) hd
        (fun t ht => (hhead t ht).2)]

theorem level_reads {DL DR : List Tok → Tree → Prop} {isop : Tok → Option Op} {left right : List Tok → R} {N n : Nat}
    {CL CR C : Tok → Prop} (hl : Reads left N DL CL) (hr : Reads right N DR CR) (hn : N ≤ n)
    (hop : ∀ t op, isop t = some op → ¬ CL t ∧ ¬ CR t)
    (hC : ∀ t, ¬ C t → ¬ CL t ∧ ¬ CR t ∧ isop t = none) :
    Reads (level n left isop right) N (Chain DL isop DR) C where
  sound := by
    intro toks e rest h
    unfold level at h
    split at h
    · rename_i e0 r0 h0
      obtain ⟨u, hu, hne, hd⟩ := hl.sound _ _ _ h0
      obtain ⟨u', hu', hc⟩ := loop_sound hr n e0 u r0 (.base hd) e rest h
      exact ⟨u ++ u', by rw [hu, hu', List.append_assoc], by simp [hne], hc⟩
    · cases h
    · cases h
  complete := by
    intro used rest e hlen hc hhead
    obtain ⟨m, hm, hlev⟩ := chain_complete hl hr hn hop used e hc rest hlen (fun t ht =>
      ⟨(hC t (hhead t ht)).1, (hC t (hhead t ht)).2.1⟩)
    rw [hlev]
    rcases m with _ | m
    · omega
    rcases rest with _ | ⟨t, rest⟩
    · rfl
    · simp only [loop, (hC t (hhead t (by simp))).2.2]
  total := by
    intro toks hlen
    unfold level
    split
    · rename_i e0 r0 h0
      obtain ⟨u, hu, hne, hd⟩ := hl.sound _ _ _ h0
      have : toks.length = u.length + r0.length := by rw [hu, List.length_append]
      exact loop_total hr n e0 r0 (by omega) (by omega)
    · simp
    · rename_i h0
      exact absurd h0 (hl.total toks hlen)

theorem derives_chain (g : Grammar) (k : Nat) (hk : k < g.top) (l : List Tok) (e : Tree) :
    g.Derives k l e ↔ Chain (g.Derives (k + 1)) (g.ops k) (g.Derives (g.right k)) l e := by
  constructor
  · intro h
    generalize hj : k = j at h
    induction h with
    | up _ h _ => subst hj; exact .base h
    | bin _ ho _ hr ih _ =>
      subst hj
      exact .step ho (ih rfl) hr
    | pre => omega
    | paren => omega
    | atom => omega
  · intro h
    induction h with
    | base h => exact .up hk h
    | step ho _ hr ih => exact .bin hk ho ih hr

/-- Tokens that would continue an expression of level `k`; `X` is for primary expressions. -/
def Cont (g : Grammar) (X : Tok → Prop) (k : Nat) (t : Tok) : Prop := g.Operator k t ∨ X t

theorem reads_weaken {P : List Tok → R} {N : Nat} {D : List Tok → Tree → Prop} {C C' : Tok → Prop}
    (h : Reads P N D C) (hC : ∀ t, C t → C' t) : Reads P N D C' :=
  ⟨h.sound, fun u r e h1 h2 h3 => h.complete u r e h1 h2 (fun t ht hc => h3 t ht (hC t hc)), h.total⟩

/-- An operator has one level, and does not continue a primary expression. -/
structure Grammar.Clear (g : Grammar) (X : Tok → Prop) : Prop where
  level : ∀ t j k op op', g.ops j t = some op → g.ops k t = some op' → j = k
  plain : ∀ t k op, g.ops k t = some op → ¬ X t
  right : ∀ k, k < g.top → k < g.right k ∧ g.right k ≤ g.top

theorem step_reads {g : Grammar} {X : Tok → Prop} (hg : g.Clear X) {k N n : Nat} (hk : k < g.top) (hn : N ≤ n)
    {left right : List Tok → R} {isop : Tok → Option Op}
    (hi : ∀ t, isop t = g.ops k t)
    (hl : Reads left N (g.Derives (k + 1)) (Cont g X (k + 1)))
    (hr : Reads right N (g.Derives (g.right k)) (Cont g X (g.right k))) :
    Reads (level n left isop right) N (g.Derives k) (Cont g X k) := by
  have hi' : isop = g.ops k := funext hi
  subst hi'
  have hno : ∀ j, k < j → ∀ t op, g.ops k t = some op → ¬ Cont g X j t := by
    rintro j hj t op ho (⟨i, op', h1, h2, h3⟩ | hx)
    · have := hg.level t _ _ _ _ ho h3; omega
    · exact hg.plain t k op ho hx
  have := level_reads (C := Cont g X k) hl hr hn (fun t op ho => ⟨hno _ (by omega) t op ho, hno _ (hg.right k hk).1 t op ho⟩) (by
    intro t hc
    refine ⟨fun h => hc ?_, fun h => hc ?_, ?_⟩
    · rcases h with ⟨i, op', h1, h2, h3⟩ | hx
      · exact Or.inl ⟨i, op', by omega, h2, h3⟩
      · exact Or.inr hx
    · rcases h with ⟨i, op', h1, h2, h3⟩ | hx
      · exact Or.inl ⟨i, op', by have := (hg.right k hk).1; omega, h2, h3⟩
      · exact Or.inr hx
    · rcases ho : g.ops k t with _ | op
      · rfl
      · exact absurd (Or.inl ⟨k, op, Nat.le_refl _, hk, ho⟩) hc)
  exact ⟨fun a b c h => by
      obtain ⟨u, h1, h2, h3⟩ := this.sound a b c h
      exact ⟨u, h1, h2, (derives_chain g k hk _ _).2 h3⟩,
    fun u r e h1 h2 h3 => this.complete u r e h1 ((derives_chain g k hk _ _).1 h2) h3, this.total⟩

/-! ### NASM -/

theorem nasm_levels {k j : Nat} {t : Tok} {op op' : Op} (h : nasmOps j t = some op) (h' : nasmOps k t = some op') :
    j = k := by
  unfold nasmOps at h h'
  split at h <;> simp_all <;> split at h' <;> simp_all

theorem nasm_clear (c : Ctx) (ty : Kind) : (nasm c ty).Clear (fun _ => False) where
  level t j k op op' h h' := nasm_levels h h'
  plain _ _ _ _ h := h
  right k hk := by
    simp only [nasm] at hk ⊢
    split <;> omega

theorem nasm_isMul (t : Tok) : isMul t = nasmOps 7 t := by
  unfold isMul nasmOps; split <;> simp_all <;> split <;> simp_all
theorem nasm_isAdd (t : Tok) : isAdd t = nasmOps 6 t := by
  unfold isAdd nasmOps; split <;> simp_all <;> split <;> simp_all
theorem nasm_isShift (t : Tok) : isShift t = nasmOps 5 t := by
  unfold isShift nasmOps; split <;> simp_all <;> split <;> simp_all
theorem nasm_isWrt (t : Tok) : isWrt t = nasmOps 1 t := by
  unfold isWrt nasmOps; split <;> simp_all <;> split <;> simp_all
theorem nasm_one4 (t : Tok) : one '&' .AND t = nasmOps 4 t := by
  unfold one nasmOps; split <;> split <;> simp_all
theorem nasm_one3 (t : Tok) : one '^' .XOR t = nasmOps 3 t := by
  unfold one nasmOps; split <;> split <;> simp_all
theorem nasm_one2 (t : Tok) : one '|' .OR t = nasmOps 2 t := by
  unfold one nasmOps; split <;> split <;> simp_all
theorem nasm_one0 (t : Tok) : one ':' .SEGOFF t = nasmOps 0 t := by
  unfold one nasmOps; split <;> split <;> simp_all

/-- The levels of nasm-parse.c for any grammar that has these operators from level `b` on. -/
theorem expr0_reads {g : Grammar} {X : Tok → Prop} (hg : g.Clear X) (b : Nat) (htop : g.top = b + 6)
    (hops : ∀ i < 6, ∀ t, g.ops (b + i) t = nasmOps (i + 2) t) (hright : ∀ i < 6, g.right (b + i) = b + i + 1)
    {N n : Nat} (hn : N ≤ n) {e6 : List Tok → R} (h6 : Reads e6 N (g.Derives (b + 6)) (Cont g X (b + 6))) :
    Reads (expr0 n e6) N (g.Derives b) (Cont g X b) := by
  have step : ∀ i < 6, ∀ (l : List Tok → R) (isop : Tok → Option Op), (∀ t, isop t = nasmOps (i + 2) t) →
      Reads l N (g.Derives (b + i + 1)) (Cont g X (b + i + 1)) →
      Reads (level n l isop l) N (g.Derives (b + i)) (Cont g X (b + i)) := by
    intro i hi l isop ho hl
    refine step_reads hg (by omega) hn (fun t => by rw [ho, hops i hi]) hl ?_
    rw [hright i hi]; exact hl
  have h5 := step 5 (by omega) _ _ nasm_isMul h6
  have h4 := step 4 (by omega) _ _ nasm_isAdd h5
  have h3 := step 3 (by omega) _ _ nasm_isShift h4
  have h2 := step 2 (by omega) _ _ nasm_one4 h3
  have h1 := step 1 (by omega) _ _ nasm_one3 h2
  exact step 0 (by omega) _ _ nasm_one2 h1

theorem nasm_expr0 (c : Ctx) (ty : Kind) {N n : Nat} (hn : N ≤ n) {e6 : List Tok → R}
    (h6 : Reads e6 N ((nasm c ty).Derives 8) (Cont (nasm c ty) (fun _ => False) 8)) :
    Reads (expr0 n e6) N ((nasm c ty).Derives 2) (Cont (nasm c ty) (fun _ => False) 2) := by
  refine expr0_reads (nasm_clear c ty) 2 rfl ?_ ?_ hn h6
  · intro i _ t; simp only [nasm]; rw [Nat.add_comm]
  · intro i hi
    simp only [nasm]
    rw [if_neg (by omega)]

theorem nasm_bexpr (c : Ctx) (ty : Kind) {N n : Nat} (hn : N ≤ n) {e6 : List Tok → R}
    (h6 : Reads e6 N ((nasm c ty).Derives 8) (Cont (nasm c ty) (fun _ => False) 8)) :
    Reads (bexpr n e6) N ((nasm c ty).Derives 1) (Cont (nasm c ty) (fun _ => False) 1) :=
  step_reads (nasm_clear c ty) (by simp [nasm]) hn nasm_isWrt (nasm_expr0 c ty hn h6) h6

theorem nasm_expr (c : Ctx) (ty : Kind) {N n : Nat} (hn : N ≤ n) {e6 : List Tok → R}
    (h6 : Reads e6 N ((nasm c ty).Derives 8) (Cont (nasm c ty) (fun _ => False) 8)) :
    Reads (expr n e6 ty) N ((nasm c ty).Derives (nasm c ty).start)
      (Cont (nasm c ty) (fun _ => False) (nasm c ty).start) := by
  unfold expr
  by_cases h : ty = .dir
  · rw [if_pos h]
    have : (nasm c ty).start = 2 := by simp [nasm, h]
    rw [this]
    exact nasm_expr0 c ty hn h6
  · rw [if_neg h]
    have : (nasm c ty).start = 0 := by simp [nasm, h]
    rw [this]
    exact step_reads (nasm_clear c ty) (by simp [nasm]) hn nasm_one0 (nasm_bexpr c ty hn h6) (nasm_bexpr c ty hn h6)

theorem nasm_atom (c : Ctx) (ty : Kind) (t : Tok) : nasmAtom c ty [t] = primary c ty t := by
  rcases t with _ | _ | _ | _ | _ | _ | ⟨k, n⟩ | _ | _
  case ident => rcases k <;> simp [nasmAtom, primary]
  case here => rcases ha : c.abspos <;> simp only [nasmAtom, primary, position, ha]
  case base => rcases ha : c.absstart <;> simp only [nasmAtom, primary, position, ha]
  all_goals simp [nasmAtom, primary]

theorem nasm_atom_one {c : Ctx} {ty : Kind} {l : List Tok} {e : Tree} (h : nasmAtom c ty l = some e) :
    ∃ t, l = [t] ∧ primary c ty t = some e := by
  rcases l with _ | ⟨t, _ | ⟨t', l⟩⟩
  · simp [nasmAtom] at h
  · exact ⟨t, rfl, by rw [← nasm_atom]; exact h⟩
  · simp [nasmAtom] at h

theorem map_ok {f : Tree → Tree} {r : R} {e : Tree} {rest : List Tok} (h : r.map f = .ok e rest) :
    ∃ e0, r = .ok e0 rest ∧ e = f e0 := by
  rcases r with ⟨t, r'⟩ | _ | _ <;> simp only [R.map, R.ok.injEq, reduceCtorEq] at h
  obtain ⟨rfl, rfl⟩ := h
  exact ⟨t, rfl, rfl⟩

theorem map_stuck {f : Tree → Tree} {r : R} (h : r ≠ .stuck) : r.map f ≠ .stuck := by
  rcases r with _ | _ | _ <;> simp [R.map] at h ⊢

theorem derives_top {g : Grammar} {k : Nat} {l : List Tok} {e : Tree} (hk : k = g.top) (h : g.Derives k l e) :
    (∃ t f r e', l = t :: r ∧ e = f e' ∧ g.pre t = some f ∧ g.Derives g.top r e') ∨
    (∃ l', l = .chr '(' :: l' ++ [.chr ')'] ∧ g.Derives g.start l' e) ∨ g.atom l = some e := by
  cases h with
  | up h _ => omega
  | bin h _ _ _ => omega
  | pre hp hd => exact Or.inl ⟨_, _, _, _, rfl, rfl, hp, hd⟩
  | paren hd => exact Or.inr (Or.inl ⟨_, rfl, hd⟩)
  | atom ha => exact Or.inr (Or.inr ha)

theorem expr6_plain (c : Ctx) (ty : Kind) (n : Nat) (t : Tok) (rest : List Tok) (e : Tree)
    (h : primary c ty t = some e) : expr6 c ty (n + 1) (t :: rest) = .ok e rest := by
  rcases t with _ | _ | _ | _ | _ | _ | _ | _ | _
  case chr => simp [primary] at h
  case kw => simp [primary] at h
  all_goals simp only [expr6, h]

theorem nasm_expr6 (c : Ctx) (ty : Kind) (n : Nat) :
    Reads (expr6 c ty n) n ((nasm c ty).Derives 8) (Cont (nasm c ty) (fun _ => False) 8) := by
  induction n with
  | zero => exact ⟨fun _ _ _ h => by simp [expr6] at h, fun _ _ _ h => by omega, fun _ h => by omega⟩
  | succ n ih =>
    have hx := nasm_expr c ty (Nat.le_refl n) ih
    have pre : ∀ (t : Tok) (f : Tree → Tree) (toks : List Tok) (e : Tree) (rest : List Tok), nasmPre t = some f →
        (expr6 c ty n toks).map f = .ok e rest →
        ∃ used, t :: toks = used ++ rest ∧ used ≠ [] ∧ (nasm c ty).Derives 8 used e := by
      intro t f toks e rest hp h
      obtain ⟨e0, h0, rfl⟩ := map_ok h
      obtain ⟨u, hu, _, hd⟩ := ih.sound _ _ _ h0
      exact ⟨t :: u, by rw [hu]; rfl, by simp, .pre (g := nasm c ty) hp hd⟩
    refine ⟨?_, ?_, ?_⟩
    · intro toks e rest h
      rcases toks with _ | ⟨t, toks⟩
      · simp [expr6] at h
      · simp only [expr6] at h
        split at h
        · refine pre _ id toks e rest rfl ?_
          rw [h]; rfl
        · exact pre _ _ toks e rest rfl h
        · exact pre _ _ toks e rest rfl h
        · exact pre _ _ toks e rest rfl h
        · exact pre _ _ toks e rest rfl h
        · exact pre _ _ toks e rest rfl h
        · split at h
          · rename_i e0 r0 h0
            simp only [R.ok.injEq] at h
            obtain ⟨rfl, rfl⟩ := h
            obtain ⟨u, hu, _, hd⟩ := hx.sound _ _ _ h0
            exact ⟨Tok.chr '(' :: u ++ [Tok.chr ')'], by rw [hu]; simp, by simp, .paren (g := nasm c ty) hd⟩
          · cases h
          · cases h
          · cases h
        · split at h
          · rename_i e0 h0
            simp only [R.ok.injEq] at h
            obtain ⟨rfl, rfl⟩ := h
            exact ⟨[t], rfl, by simp, .atom (g := nasm c ty) (by rw [← h0]; exact nasm_atom c ty t)⟩
          · cases h
    · intro used rest e hlen hd hhead
      rcases derives_top (g := nasm c ty) rfl hd with ⟨t, f, r, e', rfl, rfl, hp, hr⟩ | ⟨l, rfl, hl⟩ | ha
      · have hlen' : (r ++ rest).length < n := by
          simp only [List.cons_append, List.length_cons] at hlen; omega
        have h1 := ih.complete r rest e' hlen' hr hhead
        simp only [nasm] at hp
        simp only [List.cons_append]
        unfold nasmPre at hp
        split at hp <;> simp only [Option.some.injEq, reduceCtorEq] at hp <;> subst hp <;>
          simp only [expr6, h1, R.map] <;> rfl
      · have hlen' : (l ++ (.chr ')' :: rest)).length < n := by
          simp only [List.cons_append, List.append_assoc, List.nil_append, List.length_cons] at hlen; omega
        have h1 := hx.complete l (.chr ')' :: rest) e hlen' hl (by
          intro t ht
          simp only [List.head?_cons, Option.mem_some_iff] at ht
          subst ht
          rintro (⟨j, op, _, _, ho⟩ | h)
          · simp [nasm, nasmOps] at ho
          · exact h)
        have e1 : (Tok.chr '(' :: l ++ [Tok.chr ')']) ++ rest = Tok.chr '(' :: (l ++ (.chr ')' :: rest)) := by simp
        rw [e1]
        simp only [expr6, h1]
      · obtain ⟨t, rfl, hp⟩ := nasm_atom_one ha
        exact expr6_plain c ty n t rest e hp
    · intro toks hlen
      rcases toks with _ | ⟨t, toks⟩
      · simp [expr6]
      · simp only [List.length_cons] at hlen
        have h1 := ih.total toks (by omega)
        have h2 := hx.total toks (by omega)
        simp only [expr6]
        split
        · exact h1
        · exact map_stuck h1
        · exact map_stuck h1
        · exact map_stuck h1
        · exact map_stuck h1
        · exact map_stuck h1
        · split
          · simp
          · simp
          · simp
          · rename_i h0; exact absurd h0 h2
        · split <;> simp

/-! ### The preprocessor -/

theorem pp_levels {k j : Nat} {t : Tok} {op op' : Op} (h : ppOps j t = some op) (h' : ppOps k t = some op') :
    j = k := by
  have low : ∀ (i i' : Nat) (t : Tok) (op op' : Op), i < 4 → ppOps i t = some op → ppOps i' t = some op' → i = i' := by
    intro i i' t op op' hi h h'
    rcases t with _ | k | _ | _ | _ | _ | _ | _ | _
    case kw =>
      rcases i with _ | _ | _ | _ | i
      case succ => omega
      all_goals
        rcases i' with _ | _ | _ | _ | i' <;> cases k <;> simp [ppOps, nasmOps] at h h' ⊢
    all_goals
      rcases i with _ | _ | _ | _ | i
      case succ => omega
      all_goals simp [ppOps] at h
  by_cases hj : j < 4
  · exact low j k t op op' hj h h'
  · by_cases hk : k < 4
    · exact (low k j t op' op hk h' h).symm
    · obtain ⟨j', rfl⟩ : ∃ j', j = j' + 4 := ⟨j - 4, by omega⟩
      obtain ⟨k', rfl⟩ : ∃ k', k = k' + 4 := ⟨k - 4, by omega⟩
      simp only [ppOps] at h h'
      have := nasm_levels h h'
      omega

theorem pp_clear (find : Option (Name → Option Nat)) (crit : Bool) : (pp find crit).Clear (fun _ => False) where
  level t j k op op' h h' := pp_levels h h'
  plain _ _ _ _ h := h
  right k hk := by
    simp only [pp] at hk ⊢
    omega

theorem pp_isRel (t : Tok) : isRel t = ppOps 3 t := by
  unfold isRel ppOps; split <;> simp_all <;> split <;> simp_all
theorem pp_isLand (t : Tok) : isLand t = ppOps 2 t := by
  unfold isLand ppOps; split <;> simp_all <;> split <;> simp_all
theorem pp_isLxor (t : Tok) : isLxor t = ppOps 1 t := by
  unfold isLxor ppOps; split <;> simp_all <;> split <;> simp_all
theorem pp_isLor (t : Tok) : isLor t = ppOps 0 t := by
  unfold isLor ppOps; split <;> simp_all <;> split <;> simp_all

theorem pp_expr0 (find : Option (Name → Option Nat)) (crit : Bool) {N n : Nat} (hn : N ≤ n) {e6 : List Tok → R}
    (h6 : Reads e6 N ((pp find crit).Derives 10) (Cont (pp find crit) (fun _ => False) 10)) :
    Reads (expr0 n e6) N ((pp find crit).Derives 4) (Cont (pp find crit) (fun _ => False) 4) := by
  refine expr0_reads (pp_clear find crit) 4 rfl ?_ ?_ hn h6
  · intro i _ t; simp only [pp]; rw [Nat.add_comm]; rfl
  · intro i hi; rfl

theorem pp_bexpr (find : Option (Name → Option Nat)) (crit : Bool) {N n : Nat} (hn : N ≤ n) {e6 : List Tok → R}
    (h6 : Reads e6 N ((pp find crit).Derives 10) (Cont (pp find crit) (fun _ => False) 10)) :
    Reads (ppBexpr n e6 crit) N ((pp find crit).Derives (pp find crit).start)
      (Cont (pp find crit) (fun _ => False) (pp find crit).start) := by
  have h4 := pp_expr0 find crit hn h6
  unfold ppBexpr
  cases crit with
  | false => exact h4
  | true =>
    have step : ∀ i < 4, ∀ (l : List Tok → R) (isop : Tok → Option Op), (∀ t, isop t = ppOps i t) →
        Reads l N ((pp find true).Derives (i + 1)) (Cont (pp find true) (fun _ => False) (i + 1)) →
        Reads (level n l isop l) N ((pp find true).Derives i) (Cont (pp find true) (fun _ => False) i) := by
      intro i hi l isop ho hl
      exact step_reads (pp_clear find true) (by simp only [pp]; omega) hn ho hl hl
    have h3 := step 3 (by omega) _ _ pp_isRel h4
    have h2 := step 2 (by omega) _ _ pp_isLand h3
    have h1 := step 1 (by omega) _ _ pp_isLxor h2
    exact step 0 (by omega) _ _ pp_isLor h1

theorem pp_atom (find : Option (Name → Option Nat)) (t : Tok) : ppAtom find [t] = ppPrimary find t := by
  rcases t with _ | _ | _ | _ | _ | _ | ⟨k, n⟩ | _ | _
  case ident =>
    rcases k
    · rcases find with _ | f
      · rfl
      · simp only [ppAtom, ppPrimary, Option.bind_some]
        rcases f n <;> rfl
    all_goals rfl
  all_goals rfl

theorem pp_atom_one {find : Option (Name → Option Nat)} {l : List Tok} {e : Tree} (h : ppAtom find l = some e) :
    ∃ t, l = [t] ∧ ppPrimary find t = some e := by
  rcases l with _ | ⟨t, _ | ⟨t', l⟩⟩
  · simp [ppAtom] at h
  · exact ⟨t, rfl, by rw [← pp_atom]; exact h⟩
  · simp [ppAtom] at h

theorem ppExpr6_plain (find : Option (Name → Option Nat)) (crit : Bool) (n : Nat) (t : Tok) (rest : List Tok) (e : Tree)
    (h : ppPrimary find t = some e) : ppExpr6 find crit (n + 1) (t :: rest) = .ok e rest := by
  rcases t with _ | _ | _ | _ | _ | _ | _ | _ | _
  case chr => simp [ppPrimary] at h
  case kw => simp [ppPrimary] at h
  all_goals simp only [ppExpr6, h]

theorem pp_expr6 (find : Option (Name → Option Nat)) (crit : Bool) (n : Nat) :
    Reads (ppExpr6 find crit n) n ((pp find crit).Derives 10) (Cont (pp find crit) (fun _ => False) 10) := by
  induction n with
  | zero => exact ⟨fun _ _ _ h => by simp [ppExpr6] at h, fun _ _ _ h => by omega, fun _ h => by omega⟩
  | succ n ih =>
    have hx := pp_bexpr find crit (Nat.le_refl n) ih
    have pre : ∀ (t : Tok) (f : Tree → Tree) (toks : List Tok) (e : Tree) (rest : List Tok), ppPre t = some f →
        (ppExpr6 find crit n toks).map f = .ok e rest →
        ∃ used, t :: toks = used ++ rest ∧ used ≠ [] ∧ (pp find crit).Derives 10 used e := by
      intro t f toks e rest hp h
      obtain ⟨e0, h0, rfl⟩ := map_ok h
      obtain ⟨u, hu, _, hd⟩ := ih.sound _ _ _ h0
      exact ⟨t :: u, by rw [hu]; rfl, by simp, .pre (g := pp find crit) hp hd⟩
    refine ⟨?_, ?_, ?_⟩
    · intro toks e rest h
      rcases toks with _ | ⟨t, toks⟩
      · simp [ppExpr6] at h
      · simp only [ppExpr6] at h
        split at h
        · exact pre _ _ toks e rest rfl h
        · refine pre _ id toks e rest rfl ?_
          rw [h]; rfl
        · exact pre _ _ toks e rest rfl h
        · exact pre _ _ toks e rest rfl h
        · split at h
          · rename_i e0 r0 h0
            simp only [R.ok.injEq] at h
            obtain ⟨rfl, rfl⟩ := h
            obtain ⟨u, hu, _, hd⟩ := hx.sound _ _ _ h0
            exact ⟨Tok.chr '(' :: u ++ [Tok.chr ')'], by rw [hu]; simp, by simp, .paren (g := pp find crit) hd⟩
          · cases h
          · cases h
          · cases h
        · split at h
          · rename_i e0 h0
            simp only [R.ok.injEq] at h
            obtain ⟨rfl, rfl⟩ := h
            exact ⟨[t], rfl, by simp, .atom (g := pp find crit) (by rw [← h0]; exact pp_atom find t)⟩
          · cases h
    · intro used rest e hlen hd hhead
      rcases derives_top (g := pp find crit) rfl hd with ⟨t, f, r, e', rfl, rfl, hp, hr⟩ | ⟨l, rfl, hl⟩ | ha
      · have hlen' : (r ++ rest).length < n := by
          simp only [List.cons_append, List.length_cons] at hlen; omega
        have h1 := ih.complete r rest e' hlen' hr hhead
        simp only [pp] at hp
        simp only [List.cons_append]
        unfold ppPre at hp
        split at hp <;> simp only [Option.some.injEq, reduceCtorEq] at hp <;> subst hp <;>
          simp only [ppExpr6, h1, R.map] <;> rfl
      · have hlen' : (l ++ (.chr ')' :: rest)).length < n := by
          simp only [List.cons_append, List.append_assoc, List.nil_append, List.length_cons] at hlen; omega
        have h1 := hx.complete l (.chr ')' :: rest) e hlen' hl (by
          intro t ht
          simp only [List.head?_cons, Option.mem_some_iff] at ht
          subst ht
          rintro (⟨j, op, _, _, ho⟩ | h)
          · simp only [pp] at ho
            unfold ppOps at ho
            split at ho <;> simp_all [nasmOps]
          · exact h)
        have e1 : (Tok.chr '(' :: l ++ [Tok.chr ')']) ++ rest = Tok.chr '(' :: (l ++ (.chr ')' :: rest)) := by simp
        rw [e1]
        simp only [ppExpr6, h1]
      · obtain ⟨t, rfl, hp⟩ := pp_atom_one ha
        exact ppExpr6_plain find crit n t rest e hp
    · intro toks hlen
      rcases toks with _ | ⟨t, toks⟩
      · simp [ppExpr6]
      · simp only [List.length_cons] at hlen
        have h1 := ih.total toks (by omega)
        have h2 := hx.total toks (by omega)
        simp only [ppExpr6]
        split
        · exact map_stuck h1
        · exact h1
        · exact map_stuck h1
        · exact map_stuck h1
        · split
          · simp
          · simp
          · simp
          · rename_i h0; exact absurd h0 h2
        · split <;> simp

/-! ### The GNU assembler -/

theorem gas_levels {k j : Nat} {t : Tok} {op op' : Op} (h : gasOps j t = some op) (h' : gasOps k t = some op') :
    j = k := by
  unfold gasOps at h h'
  split at h <;> simp_all <;> split at h' <;> simp_all

/-- What continues a GNU identifier. -/
def AtSign (t : Tok) : Prop := t = .chr '@'

theorem gas_clear (c : Ctx) : (gas c).Clear AtSign where
  level t j k op op' h h' := gas_levels h h'
  plain t k op h hx := by
    simp only [AtSign] at hx
    subst hx
    simp [gas, gasOps] at h
  right k hk := by
    simp only [gas] at hk ⊢
    omega

theorem gas_isAdd (t : Tok) : isAdd t = gasOps 0 t := by
  unfold isAdd gasOps; split <;> simp_all <;> split <;> simp_all
theorem gas_isBit (t : Tok) : isBit t = gasOps 1 t := by
  unfold isBit gasOps; split <;> simp_all <;> split <;> simp_all
theorem gas_isMulShift (t : Tok) : isMulShift t = gasOps 2 t := by
  unfold isMulShift gasOps; split <;> simp_all <;> split <;> simp_all

theorem gas_parse (c : Ctx) {N n : Nat} (hn : N ≤ n) {e2 : List Tok → R}
    (h3 : Reads e2 N ((gas c).Derives 3) (Cont (gas c) AtSign 3)) :
    Reads (gasParse n e2) N ((gas c).Derives 0) (Cont (gas c) AtSign 0) := by
  have step : ∀ i < 3, ∀ (l : List Tok → R) (isop : Tok → Option Op), (∀ t, isop t = gasOps i t) →
      Reads l N ((gas c).Derives (i + 1)) (Cont (gas c) AtSign (i + 1)) →
      Reads (level n l isop l) N ((gas c).Derives i) (Cont (gas c) AtSign i) := by
    intro i hi l isop ho hl
    exact step_reads (gas_clear c) (by simp only [gas]; omega) hn ho hl hl
  have h2 := step 2 (by omega) _ _ gas_isMulShift h3
  have h1 := step 1 (by omega) _ _ gas_isBit h2
  exact step 0 (by omega) _ _ gas_isAdd h1

theorem gas_ident (c : Ctx) (k : IdKind) (n : Name) (toks rest : List Tok) (e : Tree)
    (h : gasIdent c n toks = .ok e rest) :
    ∃ used, toks = used ++ rest ∧ gasAtom c (.ident k n :: used) = some e := by
  unfold gasIdent at h
  split at h
  · split at h
    · rename_i w rest'
      split at h
      · rename_i s hs
        simp only [R.ok.injEq] at h
        obtain ⟨rfl, rfl⟩ := h
        exact ⟨[_, _], rfl, by simp [gasAtom, hs]⟩
      · rename_i hs
        simp only [R.ok.injEq] at h
        obtain ⟨rfl, rfl⟩ := h
        exact ⟨[_, _], rfl, by simp [gasAtom, hs]⟩
    · cases h
  · simp only [R.ok.injEq] at h
    obtain ⟨rfl, rfl⟩ := h
    exact ⟨[], rfl, rfl⟩

theorem gas_expr2 (c : Ctx) (n : Nat) :
    Reads (gasExpr2 c n) n ((gas c).Derives 3) (Cont (gas c) AtSign 3) := by
  induction n with
  | zero => exact ⟨fun _ _ _ h => by simp [gasExpr2] at h, fun _ _ _ h => by omega, fun _ h => by omega⟩
  | succ n ih =>
    have hx := gas_parse c (Nat.le_refl n) ih
    have pre : ∀ (t : Tok) (f : Tree → Tree) (toks : List Tok) (e : Tree) (rest : List Tok), gasPre t = some f →
        (gasExpr2 c n toks).map f = .ok e rest →
        ∃ used, t :: toks = used ++ rest ∧ used ≠ [] ∧ (gas c).Derives 3 used e := by
      intro t f toks e rest hp h
      obtain ⟨e0, h0, rfl⟩ := map_ok h
      obtain ⟨u, hu, _, hd⟩ := ih.sound _ _ _ h0
      exact ⟨t :: u, by rw [hu]; rfl, by simp, .pre (g := gas c) hp hd⟩
    refine ⟨?_, ?_, ?_⟩
    · intro toks e rest h
      rcases toks with _ | ⟨t, toks⟩
      · simp [gasExpr2] at h
      · simp only [gasExpr2] at h
        split at h
        · refine pre _ id toks e rest rfl ?_
          rw [h]; rfl
        · exact pre _ _ toks e rest rfl h
        · exact pre _ _ toks e rest rfl h
        · split at h
          · rename_i e0 r0 h0
            simp only [R.ok.injEq] at h
            obtain ⟨rfl, rfl⟩ := h
            obtain ⟨u, hu, _, hd⟩ := hx.sound _ _ _ h0
            exact ⟨Tok.chr '(' :: u ++ [Tok.chr ')'], by rw [hu]; simp, by simp, .paren (g := gas c) hd⟩
          · cases h
          · cases h
          · cases h
        · simp only [R.ok.injEq] at h
          obtain ⟨rfl, rfl⟩ := h
          exact ⟨[_], rfl, by simp, .atom (g := gas c) rfl⟩
        · simp only [R.ok.injEq] at h
          obtain ⟨rfl, rfl⟩ := h
          exact ⟨[_], rfl, by simp, .atom (g := gas c) rfl⟩
        · rename_i k nm
          obtain ⟨u, rfl, ha⟩ := gas_ident c k nm toks rest e h
          exact ⟨_ :: u, rfl, by simp, .atom (g := gas c) ha⟩
        · cases h
    · intro used rest e hlen hd hhead
      rcases derives_top (g := gas c) rfl hd with ⟨t, f, r, e', rfl, rfl, hp, hr⟩ | ⟨l, rfl, hl⟩ | ha
      · have hlen' : (r ++ rest).length < n := by
          simp only [List.cons_append, List.length_cons] at hlen; omega
        have h1 := ih.complete r rest e' hlen' hr hhead
        simp only [gas] at hp
        simp only [List.cons_append]
        unfold gasPre at hp
        split at hp <;> simp only [Option.some.injEq, reduceCtorEq] at hp <;> subst hp <;>
          simp only [gasExpr2, h1, R.map] <;> rfl
      · have hlen' : (l ++ (.chr ')' :: rest)).length < n := by
          simp only [List.cons_append, List.append_assoc, List.nil_append, List.length_cons] at hlen; omega
        have h1 := hx.complete l (.chr ')' :: rest) e hlen' hl (by
          intro t ht
          simp only [List.head?_cons, Option.mem_some_iff] at ht
          subst ht
          rintro (⟨j, op, _, _, ho⟩ | h)
          · simp [gas, gasOps] at ho
          · simp [AtSign] at h)
        have e1 : (Tok.chr '(' :: l ++ [Tok.chr ')']) ++ rest = Tok.chr '(' :: (l ++ (.chr ')' :: rest)) := by simp
        rw [e1]
        simp only [gasExpr2, h1]
      · simp only [gas] at ha
        unfold gasAtom at ha
        split at ha
        · simp only [Option.some.injEq] at ha; subst ha; rfl
        · simp only [Option.some.injEq] at ha; subst ha; rfl
        · simp only [Option.some.injEq] at ha; subst ha
          simp only [List.cons_append, List.nil_append, gasExpr2]
          unfold gasIdent
          split
          · exact absurd (Or.inr rfl) (hhead (.chr '@') (by simp))
          · rfl
        · simp only [List.cons_append, List.nil_append, gasExpr2, gasIdent]
          split at ha <;> rename_i hs <;> simp only [Option.some.injEq] at ha <;> subst ha <;> simp only [hs]
        · cases ha
    · intro toks hlen
      rcases toks with _ | ⟨t, toks⟩
      · simp [gasExpr2]
      · simp only [List.length_cons] at hlen
        have h1 := ih.total toks (by omega)
        have h2 := hx.total toks (by omega)
        simp only [gasExpr2]
        split
        · exact h1
        · exact map_stuck h1
        · exact map_stuck h1
        · split
          · simp
          · simp
          · simp
          · rename_i h0; exact absurd h0 h2
        · simp
        · simp
        · unfold gasIdent
          split
          · split
            · split <;> simp
            · simp
          · simp
        · simp

end Verif.Parse
