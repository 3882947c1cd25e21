import Verif.Bin.Virtual
import Verif.Bin.Image
import Verif.Bin.Align
/-
Property theorems about the flat binary object format (C59, C60).
-/
namespace Verif.Bin
open Verif.Intnum

/-! ## Samples -/

/-- A section of the given name and length without any attribute. -/
def plain (name : Byte) (length : Nat) : Sect :=
  ⟨[name], false, 0, none, none, none, none, none, none, length, [.bytes (List.replicate length name)]⟩

/-- Code; data that follows it, aligned to 16; a table at a fixed address; a nobits section. -/
def sample : List Sect :=
  [plain 1#8 5, { plain 2#8 3 with follows := some [1#8], align := some 16 },
   { plain 3#8 4 with start := some 0x120 }, { plain 4#8 64 with bss := true, pieces := [.gap 64] },
   { plain 5#8 2 with vstart := some 0x8000, pieces := [.gap 1, .bytes [5#8]] },
   { plain 6#8 2 with vfollows := some [5#8], valign := some 32 }]

/-! ## C59: addresses -/

/-- C59: the load addresses are determined exactly when every section that is followed exists and no
    section follows itself, directly or through others; the same for virtual addresses. -/
theorem follows_accepted (origin : Int) (sects : List Sect) (hn : (sects.map (·.name)).Nodup) :
    ((∃ l, lmaLayout origin sects = .ok l) ↔ Known (·.follows) sects ∧ Acyclic (·.follows) sects) ∧
    ∀ l, ((∃ v, vmaLayout sects l = .ok v) ↔ Known (·.vfollows) sects ∧ Acyclic (·.vfollows) sects) := by
  have key : ∀ key : Sect → Option Name, (∃ g, link key sects (Forest.ofList sects) = .ok g) ↔
      Known key sects ∧ Acyclic key sects := by
    intro key
    constructor
    · rintro ⟨g, hg⟩
      have hk : Known key sects := by
        have := link_known (key := key) sects [] _ g (by simpa using hn) (linkInv_init key sects) hg
        simpa [Known] using this
      exact ⟨hk, link_acyclic hn hg hk⟩
    · rintro ⟨hk, ha⟩
      exact link_succeeds hk ha sects [] _ (by simp) hn (linkInv_init key sects)
  constructor
  · rw [← key]
    unfold lmaLayout
    constructor
    · rintro ⟨l, hl⟩
      split at hl
      · cases hl
      · rename_i f hf; exact ⟨f, hf⟩
    · rintro ⟨g, hg⟩
      rw [hg]; exact ⟨_, rfl⟩
  · intro l
    rw [← key]
    unfold vmaLayout
    constructor
    · rintro ⟨l, hl⟩
      split at hl
      · cases hl
      · rename_i f hf; exact ⟨f, hf⟩
    · rintro ⟨g, hg⟩
      rw [hg]; exact ⟨_, rfl⟩

example : (sample.map (·.name)).Nodup := by decide

/-- A section that follows itself through another is refused, and so is an unknown name. -/
example : lmaLayout 0 [{ plain 1#8 5 with follows := some [2#8] }, { plain 2#8 5 with follows := some [1#8] }] =
      .error (.loop [2#8] [1#8]) ∧
    lmaLayout 0 [{ plain 1#8 5 with follows := some [9#8] }] = .error (.unknown [1#8] [9#8]) := by
  decide +kernel

/-- C59: every section gets one load address.  A section that follows another starts at the first
    suitably aligned address at or after the end of that one; a section with a start address starts at
    the first suitably aligned address at or after it, hence exactly there if it is aligned; any other
    section starts at an aligned address at or after the origin. -/
theorem load_addresses (origin : Int) (sects : List Sect) (l : List Placed)
    (hn : (sects.map (·.name)).Nodup) (hs : ∀ s ∈ sects, Sane s) (h : lmaLayout origin sects = .ok l) :
    (l.map (·.sect)).Perm sects ∧
    ∀ p ∈ l, (p.sect.wantAlign : Int) ∣ p.istart ∧
      (∀ n, p.sect.follows = some n → ∃ q ∈ l, q.sect.name = n ∧
        FirstAligned (q.istart + q.sect.length) p.sect.wantAlign p.istart) ∧
      (∀ x, p.sect.start = some x → FirstAligned x p.sect.wantAlign p.istart ∧
        ((p.sect.wantAlign : Int) ∣ x → p.istart = x)) ∧
      (p.sect.follows = none → p.sect.start = none → origin ≤ p.istart) := by
  obtain ⟨hp, hfree, hfol⟩ := lmaLayout_spec hn h
  refine ⟨hp, ?_⟩
  intro p hpl
  have hsane : Sane p.sect := hs _ (hp.mem_iff.1 (List.mem_map_of_mem hpl))
  have hfa := fun b => lmaOf_first hsane.align b
  refine ⟨?_, ?_, ?_, ?_⟩
  · rcases hf : p.sect.follows with _ | n
    · obtain ⟨b, _, e⟩ := hfree p hpl hf
      rw [e]; exact (hfa _).2.1
    · obtain ⟨q, _, _, e⟩ := hfol p hpl n hf
      rw [e]; exact (hfa _).2.1
  · intro n hf
    obtain ⟨q, hq, hqn, e⟩ := hfol p hpl n hf
    exact ⟨q, hq, hqn, by rw [e]; exact hfa _⟩
  · intro x hx
    have hf : p.sect.follows = none := by
      rcases hsane.start with c | c
      · rw [hx] at c; cases c
      · exact c
    obtain ⟨b, _, e⟩ := hfree p hpl hf
    rw [hx, Option.getD_some] at e
    refine ⟨by rw [e]; exact hfa _, fun hd => ?_⟩
    rw [e, lmaOf, alignTo_self (by rw [wantAlign_eq]; exact hd)]
  · intro hf hx
    obtain ⟨b, hb, e⟩ := hfree p hpl hf
    rw [hx, Option.getD_none] at e
    rw [e]
    exact Int.le_trans hb (hfa b).1

example : (∃ l, lmaLayout 0x100 sample = .ok l) ∧ ∀ s ∈ sample, Sane s := by
  refine ⟨⟨_, rfl⟩, ?_⟩
  intro s hs
  simp only [sample, List.mem_cons, List.not_mem_nil, or_false] at hs
  rcases hs with h | h | h | h | h | h <;> subst h <;> exact ⟨by decide, by decide, by decide, by decide⟩

example : (lmaLayout 0x100 sample).map (fun l => l.map (fun p => (p.sect.name, p.istart))) =
    .ok [([1#8], 0x100), ([2#8], 0x110), ([3#8], 0x120), ([5#8], 0x124), ([6#8], 0x128), ([4#8], 0x12c)] := by
  decide +kernel

/-- C59: sections with neither a start address nor a section to follow are in the default order (those
    with contents first, each kind as in the source) and do not run into one another, whatever the
    attributes of the other sections. -/
theorem default_order (origin : Int) (sects : List Sect) (l : List Placed)
    (hn : (sects.map (·.name)).Nodup) (hs : ∀ s ∈ sects, Sane s) (h : lmaLayout origin sects = .ok l)
    (p q : Placed) (hp : p ∈ l) (hq : q ∈ l)
    (hp1 : p.sect.start = none ∧ p.sect.follows = none) (hq1 : q.sect.start = none ∧ q.sect.follows = none)
    (hb : Before sects p.sect q.sect) : p.istart + p.sect.length ≤ q.istart := by
  obtain ⟨hperm, _, _⟩ := lmaLayout_spec hn h
  have hnd := nodup_placed hn hperm
  unfold lmaLayout at h
  split at h
  · cases h
  · rename_i f hf
    obtain ⟨he, hh⟩ := link_edges hn hf
    cases h
    -- the main list has the sections without `follows` in order
    have hsub : ∀ a b : Sect, a.follows = none → b.follows = none → List.Sublist [a, b] sects →
        List.Sublist [a, b] (f.tops.map (·.1)) := by
      intro a b ha hb hab
      rw [tops_heads, hh]
      have := hab.filter (fun s => s.follows.isNone)
      simpa [ha, hb] using this
    have hmem : ∀ a ∈ sects, a.follows = none → a ∈ f.tops.map (·.1) := by
      intro a ha hfa
      rw [tops_heads, hh]
      exact List.mem_filter.2 ⟨ha, by simp [hfa]⟩
    have hkey : ∃ g g' : Sect × Forest, g.1 = p.sect ∧ g'.1 = q.sect ∧ free g = true ∧ free g' = true ∧
        List.Sublist [g, g'] (sortTops f.tops) := by
      rcases hb with ⟨b1, b2, m1, m2⟩ | ⟨b1, b2⟩
      · obtain ⟨g, hg, eg⟩ := List.mem_map.1 (hmem _ m1 hp1.2)
        obtain ⟨g', hg', eg'⟩ := List.mem_map.1 (hmem _ m2 hq1.2)
        have f1 : free g = true := by simp [free, eg, hp1.1]
        have f2 : free g' = true := by simp [free, eg', hq1.1]
        refine ⟨g, g', eg, eg', f1, f2, ?_⟩
        refine List.Sublist.trans ?_ (List.filter_sublist (p := free) (l := sortTops f.tops))
        rw [sortTops_free]
        rw [show [g, g'] = [g] ++ [g'] from rfl]
        exact List.Sublist.append
          (List.singleton_sublist.2 (List.mem_filter.2 ⟨hg, by simp [f1, eg, b1]⟩))
          (List.singleton_sublist.2 (List.mem_filter.2 ⟨hg', by simp [f2, eg', b2]⟩))
      · have := hsub _ _ hp1.2 hq1.2 b2
        obtain ⟨k, hk, ek⟩ := List.sublist_map_iff.1 this
        match k, hk, ek with
        | [], _, ek => simp at ek
        | [_], _, ek => simp at ek
        | _ :: _ :: _ :: _, _, ek => simp at ek
        | [g, g'], hk, ek =>
          simp only [List.map_cons, List.map_nil, List.cons.injEq, and_true] at ek
          have f1 : free g = true := by simp [free, ← ek.1, hp1.1]
          have f2 : free g' = true := by simp [free, ← ek.2, hq1.1]
          refine ⟨g, g', ek.1.symm, ek.2.symm, f1, f2, ?_⟩
          refine List.Sublist.trans ?_ (List.filter_sublist (p := free) (l := sortTops f.tops))
          rw [sortTops_free]
          rcases hbb : p.sect.bss with _ | _
          · refine List.Sublist.trans ?_ (List.sublist_append_left _ _)
            have := hk.filter (fun g => free g && !g.1.bss)
            simpa [f1, f2, ← ek.1, ← ek.2, hbb, ← b1] using this
          · refine List.Sublist.trans ?_ (List.sublist_append_right _ _)
            have := hk.filter (fun g => free g && g.1.bss)
            simpa [f1, f2, ← ek.1, ← ek.2, hbb, ← b1] using this
    obtain ⟨g, g', eg, eg', f1, f2, hsl⟩ := hkey
    have hsane : Sane q.sect := hs _ (hperm.mem_iff.1 (List.mem_map_of_mem hq))
    exact assignTops_order hsl f2 (by rw [eg']; exact hsane.align) hnd p hp q hq eg.symm eg'.symm

example : Before sample (plain 1#8 5) { plain 6#8 2 with vfollows := some [5#8], valign := some 32 } ∧
    Before sample (plain 1#8 5) { plain 4#8 64 with bss := true, pieces := [.gap 64] } := by
  refine ⟨Or.inr ⟨rfl, ?_⟩, Or.inl ⟨rfl, rfl, by decide, by decide⟩⟩
  decide

/-- C59: when no section has a start address or follows another, the file is simply the sections one
    after the other, each at the first suitable address, those with contents first. -/
theorem default_layout (origin : Int) (sects : List Sect)
    (hs : ∀ s ∈ sects, Sane s ∧ s.start = none ∧ s.follows = none) :
    ∃ l, lmaLayout origin sects = .ok l ∧
      l.map (·.sect) = sects.filter (fun s => !s.bss) ++ sects.filter (fun s => s.bss) ∧
      Sequential origin l := by
  unfold lmaLayout
  rw [link_none (·.follows) sects _ (fun s hs' => (hs s hs').2.2)]
  simp only
  rw [ofList_tops, sortTops_default sects (fun s h => (hs s h).2.1)]
  obtain ⟨new, e1, e2, e3⟩ := assignTops_default (sects.filter (fun s => !s.bss) ++ sects.filter (fun s => s.bss))
    ⟨origin, 0, []⟩ (by
      intro s h
      have : s ∈ sects := by
        rcases List.mem_append.1 h with h | h <;> exact List.mem_of_mem_filter h
      exact (hs s this).2.1) (by
      intro s h
      have : s ∈ sects := by
        rcases List.mem_append.1 h with h | h <;> exact List.mem_of_mem_filter h
      exact (hs s this).1.align)
  exact ⟨new, by simpa using e1, e2, e3⟩

example : ∀ s ∈ [plain 1#8 5, { plain 2#8 7 with bss := true }, plain 3#8 9],
    Sane s ∧ s.start = none ∧ s.follows = none := by
  intro s hs
  simp only [List.mem_cons, List.not_mem_nil, or_false] at hs
  rcases hs with h | h | h <;> subst h <;> exact ⟨⟨by decide, by decide, by decide, by decide⟩, rfl, rfl⟩

/-- C59 (partial): every section gets one virtual address, a multiple of its virtual alignment.  A
    section that vfollows another is at the first aligned address at or after the virtual end of that
    one.  A section with a vstart is there, unless that is not aligned: then, and only then, an error
    is reported for it.  Any other section is at its load address plus the padding that virtual
    alignments have added so far: none if no section has a valign.  Missing: the assembler crashes
    instead of giving a result in the cases of `valign_crash`. -/
theorem virtual_addresses_partial (origin : Int) (sects : List Sect) (l : List Placed)
    (addrs : List (Name × Int)) (bad : List Name)
    (hn : (sects.map (·.name)).Nodup) (hs : ∀ s ∈ sects, Sane s) (h : lmaLayout origin sects = .ok l)
    (hv : vmaLayout sects l = .ok (.done addrs bad)) :
    (addrs.map (·.1)).Perm (sects.map (·.name)) ∧
    ∀ p ∈ l, ∃ v, (p.sect.name, v) ∈ addrs ∧ (p.sect.wantValign : Int) ∣ v ∧
      (∀ n, p.sect.vfollows = some n → ∃ q ∈ l, q.sect.name = n ∧ ∃ w, (n, w) ∈ addrs ∧
        FirstAligned (w + q.sect.length) p.sect.wantValign v) ∧
      (∀ x, p.sect.vstart = some x →
        (p.sect.name ∈ bad ↔ ¬ (p.sect.wantValign : Int) ∣ x) ∧ (p.sect.name ∉ bad → v = x)) ∧
      (p.sect.vfollows = none → p.sect.vstart = none → p.istart ≤ v ∧ p.sect.name ∉ bad ∧
        ((∀ s ∈ sects, s.valign = none) → v = p.istart)) := by
  obtain ⟨hperm, _, _⟩ := lmaLayout_spec hn h
  obtain ⟨bases, hr, hb, hnone, hsome⟩ := vmaLayout_spec hn h hv
  unfold vresult at hr
  split at hr
  case isFalse => cases hr
  rename_i hall
  simp only [List.nil_append, VOut.done.injEq] at hr
  obtain ⟨hA, hB⟩ := hr
  have hbn : (bases.map (·.1.name)).Nodup := by
    have := (hb.map (·.name)).nodup_iff.2 hn
    simpa [Function.comp_def] using this
  have hmem : ∀ p ∈ l, ∃ c, (p.sect, c) ∈ bases := by
    intro p hp
    have := hb.mem_iff.2 (hperm.mem_iff.1 (List.mem_map_of_mem hp))
    obtain ⟨x, hx, e⟩ := List.mem_map.1 this
    exact ⟨x.2, by rw [← e]; exact hx⟩
  have hbad : ∀ s c, (s, c) ∈ bases → (s.name ∈ bad ↔ isBad l (s, c) = true) := by
    intro s c hsc
    rw [hB, List.mem_map]
    constructor
    · rintro ⟨x, hx, e⟩
      have hx' := List.mem_filter.1 hx
      have : x = (s, c) := List.inj_on_of_nodup_map hbn hx'.1 hsc e
      rw [← this]; exact hx'.2
    · intro hbad; exact ⟨(s, c), List.mem_filter.2 ⟨hsc, hbad⟩, rfl⟩
  refine ⟨?_, ?_⟩
  · rw [hA, List.map_map]
    have := hb.map (·.name)
    simpa [Function.comp_def] using this
  · intro p hp
    obtain ⟨c, hc⟩ := hmem p hp
    have hsane : Sane p.sect := hs _ (hperm.mem_iff.1 (List.mem_map_of_mem hp))
    have hfa : FirstAligned c p.sect.wantValign (vOf (p.sect, c)) := by
      unfold vOf; rw [wantValign_eq]; exact alignTo_first _ _ hsane.valign
    have hin : (p.sect.name, vOf (p.sect, c)) ∈ addrs := by
      rw [hA]; exact List.mem_map.2 ⟨(p.sect, c), hc, rfl⟩
    have hiv := ivstartOf_mem hn hperm hp
    have hdelta := lmaLayout_delta (fun d => 0 ≤ d) hn h (Int.le_refl _) (by
      intro s hss i d hd
      unfold vmaOf
      cases s.vstart with
      | some v => exact hd
      | none =>
        cases s.vfollows with
        | some n => exact hd
        | none =>
          rcases hva : s.valign with _ | va
          · exact hd
          · have h1 := (hs s hss).valign
            have h2 : 0 < va := by simpa [Sect.wantValign, hva] using h1
            have := (alignTo_first (i + d) va h2).1
            simp only
            omega) p hp
    refine ⟨_, hin, hfa.2.1, ?_, ?_, ?_⟩
    · intro n hvf
      obtain ⟨q, b, hq, hqn, e⟩ := hsome _ _ hc n hvf
      have hqs : q ∈ sects := hb.mem_iff.1 (List.mem_map.2 ⟨(q, b), hq, rfl⟩)
      obtain ⟨q', hq', eq'⟩ := List.mem_map.1 (hperm.mem_iff.2 hqs)
      refine ⟨q', hq', by rw [eq', hqn], vOf (q, b), ?_, ?_⟩
      · rw [hA, ← hqn]; exact List.mem_map.2 ⟨(q, b), hq, rfl⟩
      · rw [eq']; rw [← e]; exact hfa
    · intro x hx
      have hvf : p.sect.vfollows = none := by
        rcases hsane.vstart with c' | c'
        · rw [hx] at c'; cases c'
        · exact c'
      have hcx : c = x := by
        have h1 := hnone _ _ hc hvf
        obtain ⟨d, _, hd⟩ := hdelta
        rw [hiv, hd] at h1
        simp only [vmaOf, hx] at h1
        exact (Option.some.inj h1).symm
      subst hcx
      have hsomeiv : (ivstartOf l p.sect.name).isSome = true := by rw [hnone _ _ hc hvf]; rfl
      have hb' : p.sect.name ∈ bad ↔ ¬ (p.sect.wantValign : Int) ∣ c := by
        rw [hbad _ _ hc]
        unfold isBad
        rw [hsomeiv, Bool.true_and, decide_eq_true_iff]
        constructor
        · intro hne hd
          apply hne
          unfold vOf
          rw [wantValign_eq]; exact (alignTo_self hd).symm
        · intro hnd he
          apply hnd
          simp only at he
          rw [he]; exact hfa.2.1
      refine ⟨hb', fun hnb => ?_⟩
      have hd : (p.sect.wantValign : Int) ∣ c := by
        by_contra hcon; exact hnb (hb'.2 hcon)
      unfold vOf
      rw [wantValign_eq]; exact alignTo_self hd
    · intro hvf hvs
      have h1 := hnone _ _ hc hvf
      have hnb : isBad l (p.sect, c) = false := by
        have := List.all_eq_true.1 hall _ hc
        simp only [hvs, Option.isSome_none, Bool.or_false, Bool.not_eq_true'] at this
        exact this
      have hcv : c = vOf (p.sect, c) := by
        unfold isBad at hnb
        simp only [h1, Option.isSome_some, Bool.true_and] at hnb
        have := decide_eq_false_iff_not.1 hnb
        by_contra hcon; exact this hcon
      refine ⟨?_, ?_, ?_⟩
      · obtain ⟨d, hd0, hd⟩ := hdelta
        rw [hiv, hd] at h1
        rw [← hcv]
        simp only [vmaOf, hvs, hvf] at h1
        rcases hva : p.sect.valign with _ | va
        · rw [hva] at h1
          have := Option.some.inj h1
          omega
        · rw [hva] at h1
          have := Option.some.inj h1
          have hpos : 0 < va := by have := hsane.valign; simpa [Sect.wantValign, hva] using this
          have := (alignTo_first (p.istart + d) va hpos).1
          omega
      · rw [hbad _ _ hc, hnb]; simp
      · intro hall'
        obtain ⟨d, hd0, hd⟩ := lmaLayout_delta (fun d => d = 0) hn h rfl (by
          intro s hss i d hd
          unfold vmaOf
          cases s.vstart with
          | some v => exact hd
          | none =>
            cases s.vfollows with
            | some n => exact hd
            | none => rw [hall' s hss]; exact hd) p hp
        have hva : p.sect.valign = none := hall' _ (hperm.mem_iff.1 (List.mem_map_of_mem hp))
        rw [hiv, hd] at h1
        simp only [vmaOf, hvs, hvf, hva, hd0, Int.add_zero] at h1
        rw [← hcv]
        exact (Option.some.inj h1).symm

example : ∃ l addrs, lmaLayout 0x100 sample = .ok l ∧ vmaLayout sample l = .ok (.done addrs []) ∧
    ([6#8], 0x8020) ∈ addrs ∧ ([5#8], 0x8000) ∈ addrs ∧ ([2#8], 0x110) ∈ addrs :=
  ⟨_, _, rfl, rfl, by decide +kernel, by decide +kernel, by decide +kernel⟩

/-- C59 fails: a section with a valign moves the virtual addresses of the sections after it; one of
    them that has a larger alignment and no virtual attributes then gets a virtual address that is not
    aligned, and reporting this dereferences the vstart expression it does not have.  Here: 4 bytes,
    4 bytes with valign=16, 4 bytes with align=16, from origin 0. -/
theorem valign_crash :
    output 0 none [plain 1#8 4, { plain 2#8 4 with valign := some 16 }, { plain 3#8 4 with align := some 16 }] =
      .crash := by
  decide +kernel

/-- C59 (partial): the rounding up done on intnums is the rounding up of integers, for alignments up
    to 2^31 and addresses below 2^254.  Missing: other alignments (`align_wrong`). -/
theorem align_intnum_partial (stale : BitVec 256) (start align : Intnum) (k : Nat) (hk : k ≤ 31)
    (ha : Canon align) (hv : val align = 2 ^ k) (hs : Fits start) (hlt : val start < 2 ^ 254) :
    FirstAligned (val start) (2 ^ k) (val (alignIntnum stale start align)) ∧
    val (alignIntnum stale start align) = alignTo (val start) (2 ^ k) := by
  have h := (align_exact stale start align k hk ha hv hs hlt).1
  refine ⟨?_, h⟩
  rw [h]
  exact alignTo_first _ _ (Nat.pow_pos (by decide))

example : Canon (.L 16#64) ∧ val (.L 16#64) = 2 ^ 4 ∧ Fits (.L 0x123#64) ∧
    val (alignIntnum 0#256 (.L 0x123#64) (.L 16#64)) = 0x130 := by
  simp only [Canon, Fits]; decide +kernel

/-- C59 (partial): of the alignments from 1 to 2^32-1 the section directive accepts exactly the powers
    of two.  Missing: 0 and negative numbers are accepted too, and 2^33 is not (`align_wrong`). -/
theorem align_accepted_partial (a : Intnum) (ha : Canon a) (h0 : 0 < val a) (h1 : val a < 2 ^ 32) :
    alignAccepted a = true ↔ ∃ k : Nat, val a = 2 ^ k := by
  have hu := get_uint_partial a ha (by omega)
  rw [if_neg (by omega), if_pos h1] at hu
  unfold alignAccepted
  rw [beq_iff_eq]
  have hne : (getUint a).toNat ≠ 0 := by omega
  have hsub : (getUint a - 1#64).toNat = (getUint a).toNat - 1 := by
    rw [BitVec.toNat_sub, show (1#64).toNat = 1 by rfl]
    have := (getUint a).isLt
    omega
  have : getUint a &&& (getUint a - 1#64) = 0#64 ↔ ((getUint a).toNat &&& ((getUint a).toNat - 1)) = 0 := by
    constructor
    · intro h
      have := congrArg BitVec.toNat h
      rw [BitVec.toNat_and, hsub] at this
      simpa using this
    · intro h
      apply BitVec.eq_of_toNat_eq
      rw [BitVec.toNat_and, hsub, h]; rfl
  rw [this, Nat.and_sub_one_eq_zero_iff_isPowerOfTwo hne]
  constructor
  · rintro ⟨k, hk⟩
    refine ⟨k, ?_⟩
    rw [← hu, hk]; push_cast; rfl
  · rintro ⟨k, hk⟩
    refine ⟨k, ?_⟩
    rw [← hu] at hk
    exact_mod_cast hk

/-- C59 fails: `align=0` and `align=-3` are accepted, and a section that should start at 5 is then
    put at 0 or -3; 2^33 is refused although it is a power of two. -/
theorem align_wrong :
    alignAccepted (.L 0#64) = true ∧ alignAccepted (.L (-3#64)) = true ∧
    alignAccepted (.BV (BitVec.ofNat 256 (2 ^ 33))) = false ∧
    val (alignIntnum 0#256 (.L 5#64) (.L 0#64)) = 0 ∧
    val (alignIntnum 0#256 (.L 5#64) (.L (-3#64))) = -3 ∧
    alignAccepted (.L 12#64) = false := by
  decide +kernel

/-! ## C60: the file -/

/-- C60 (partial): when the output is written without an error, every byte of every section with
    contents is in the file at its load address minus the origin; every other byte of the file is zero,
    and the file ends with the last byte of a section; no two sections share an address.  Missing: a
    section more than 2^31 bytes from the origin (`far_section_wrong`). -/
theorem image_partial (maxSeek : Nat) (org : Option Int) (sects : List Sect) (file : List Byte)
    (l : List Placed) (v : List (Name × Int)) (badV : List Name)
    (hn : (sects.map (·.name)).Nodup) (hlen : ∀ s ∈ sects, (contents s).length = s.length)
    (h : output maxSeek org sects = .written file l v badV [])
    (hnear : ∀ p ∈ l, p.sect.bss = false → p.istart - org.getD 0 < 2 ^ 31) :
    l.map (·.sect) = sects ∧
    (∀ p ∈ l, ∀ q ∈ l, p ≠ q → Disjoint p q) ∧
    (∀ p ∈ l, p.sect.bss = false → ∃ off : Nat, (off : Int) = p.istart - org.getD 0 ∧
      ∀ i < p.sect.length, file[off + i]? = (contents p.sect)[i]?) ∧
    (∀ (k : Nat) (b : Byte), file[k]? = some b → b ≠ 0 → ∃ p ∈ l, p.sect.bss = false ∧
      p.istart ≤ org.getD 0 + k ∧ org.getD 0 + k < p.istart + p.sect.length) ∧
    (∀ k : Nat, k < file.length → ∃ p ∈ l, p.sect.bss = false ∧ org.getD 0 + k < p.istart + p.sect.length) := by
  unfold output at h
  split at h
  · cases h
  split at h
  · cases h
  rename_i lma hlma
  split at h
  · cases h
  rename_i vo hvo
  unfold finish at h
  split at h
  · cases h
  split at h
  · cases h
  rename_i hov
  split at h
  · cases h
  rename_i f errs hout
  simp only [Result.written.injEq] at h
  obtain ⟨hfile, hl, _, _, he⟩ := h
  obtain ⟨hperm, _, _⟩ := lmaLayout_spec hn hlma
  obtain ⟨hsects, hmem⟩ := inOrder_sects hn hperm
  rw [hl] at hsects hmem hov hout
  subst he
  have hln : (l.map (·.sect.name)).Nodup := by
    have : l.map (·.sect.name) = (l.map (·.sect)).map (·.name) := by simp [Function.comp_def]
    rw [this, hsects]; exact hn
  have hdis : ∀ p ∈ l, ∀ q ∈ l, p ≠ q → Disjoint p q := by
    intro p hp q hq hne
    by_contra hc
    apply hov
    rw [overlapFound_iff]
    refine ⟨p, hp, q, hq, fun e => hne ?_, hc⟩
    exact List.inj_on_of_nodup_map hln hp hq e
  unfold outputAll at hout
  have herr := (outputAll_errs l _ _ _ _ hout).2 rfl
  have hinj : ∀ p ∈ l, ∀ q ∈ l, p ≠ q → ∀ k, ¬ (Has (org.getD 0) p k ∧ Has (org.getD 0) q k) := by
    intro p hp q hq hne k hk
    obtain ⟨⟨_, a1, a2⟩, ⟨_, b1, b2⟩⟩ := hk
    exact hdis p hp q hq hne (org.getD 0 + k) ⟨⟨by omega, by omega⟩, ⟨by omega, by omega⟩⟩
  obtain ⟨him, _⟩ := outputAll_image l [] ⟨[], 0⟩ f [] [] (by
      constructor
      · intro p hp; cases hp
      · intro k _; rfl
      · intro k hk; cases hk) (by
      intro p hp
      have hps : p.sect ∈ sects := by rw [← hsects]; exact List.mem_map_of_mem hp
      exact ⟨hlen _ hps, fun hb => ⟨(herr p hp hb).1, hnear p hp hb⟩⟩) (by intro p hp q hq; cases hq) (by
      have hnd : l.Nodup := List.Nodup.of_map _ hln
      exact (List.nodup_iff_pairwise_ne.1 hnd).imp_of_mem (fun {p q} hp hq hne => hinj p hp q hq hne)) hout
  rw [List.nil_append] at him
  rw [hfile] at him
  have hlt : ∀ p ∈ l, p.sect.bss = false → (((p.istart - org.getD 0).toNat : Nat) : Int) = p.istart - org.getD 0 := by
    intro p hp hb
    have := (herr p hp hb).1
    omega
  refine ⟨hsects, hdis, ?_, ?_, ?_⟩
  · intro p hp hb
    refine ⟨(p.istart - org.getD 0).toNat, hlt p hp hb, ?_⟩
    intro i hi
    have hps : p.sect ∈ sects := by rw [← hsects]; exact List.mem_map_of_mem hp
    have hcl := hlen _ hps
    have he := hlt p hp hb
    obtain ⟨c1, c2⟩ := him.covered p hp ((p.istart - org.getD 0).toNat + i) ⟨hb, by omega, by omega⟩
    rw [Nat.add_sub_cancel_left] at c1
    rw [List.getElem?_eq_getElem c2, List.getElem?_eq_getElem (by omega)] at c1 ⊢
    simpa using c1
  · intro k b hk hb0
    by_contra hcon
    have := him.empty k (by
      intro p hp hh
      exact hcon ⟨p, hp, hh.1, by have := hh.2.1; omega, by have := hh.2.2; omega⟩)
    rw [hk] at this
    exact hb0 this
  · intro k hk
    obtain ⟨p, hp, k', hkk, hh⟩ := him.ends k hk
    exact ⟨p, hp, hh.1, by have := hh.2.2; omega⟩

example : ∃ file l v, output (2 ^ 40) (some 0x100) sample = .written file l v [] [] ∧
    file.length = 0x2a ∧ file[0x10]? = some 2#8 ∧ file[0x24]? = some 0#8 ∧ file[0x25]? = some 5#8 ∧
    ∀ p ∈ l, p.sect.bss = false → p.istart - (some 0x100 : Option Int).getD 0 < 2 ^ 31 :=
  ⟨_, _, _, rfl, by decide +kernel, by decide +kernel, by decide +kernel, by decide +kernel, by decide +kernel⟩

example : ∀ s ∈ sample, (contents s).length = s.length := by decide +kernel

/-- C60: an overlap is reported exactly when two sections of the layout share an address (sections
    without contents count as well). -/
theorem overlap_exact (maxSeek : Nat) (org : Option Int) (sects : List Sect) (l : List Placed)
    (addrs : List (Name × Int)) (bad : List Name) (hn : (sects.map (·.name)).Nodup)
    (horg : 0 ≤ org.getD 0) (hl : lmaLayout (org.getD 0) sects = .ok l)
    (hv : vmaLayout sects l = .ok (.done addrs bad)) :
    output maxSeek org sects = .overlap ↔ ∃ p ∈ l, ∃ q ∈ l, p ≠ q ∧ ¬ Disjoint p q := by
  obtain ⟨hperm, _, _⟩ := lmaLayout_spec hn hl
  obtain ⟨_, hmem⟩ := inOrder_sects hn hperm
  have hout : output maxSeek org sects = finish maxSeek (org.getD 0) sects l (.done addrs bad) := by
    unfold output
    rw [if_neg (by omega), hl]
    simp only
    rw [hv]
  have hiff : overlapFound (inOrder sects l) = true ↔ ∃ p ∈ l, ∃ q ∈ l, p ≠ q ∧ ¬ Disjoint p q := by
    rw [overlapFound_iff]
    constructor
    · rintro ⟨p, hp, q, hq, hne, h⟩
      exact ⟨p, (hmem p).1 hp, q, (hmem q).1 hq, fun e => hne (by rw [e]), h⟩
    · rintro ⟨p, hp, q, hq, hne, h⟩
      exact ⟨p, (hmem p).2 hp, q, (hmem q).2 hq, fun e => hne (inj_placed hn hperm hp hq e), h⟩
  rw [hout, ← hiff]
  unfold finish
  simp only
  constructor
  · intro h
    split at h
    · assumption
    · split at h <;> cases h
  · intro h
    rw [if_pos h]

/-- Two sections that follow the same one start at the same place, and overlap. -/
example : output (2 ^ 40) none [plain 1#8 4, { plain 2#8 4 with follows := some [1#8] },
    { plain 3#8 4 with follows := some [1#8] }] = .overlap := by
  decide +kernel

/-- C60: errors that prevent the output of a section: one with contents that starts before the origin
    is reported, whatever else happens. -/
theorem before_origin (maxSeek : Nat) (org : Option Int) (sects : List Sect) (file : List Byte)
    (l : List Placed) (v : List (Name × Int)) (badV : List Name) (errs : List OutErr)
    (h : output maxSeek org sects = .written file l v badV errs) (p : Placed) (hp : p ∈ l)
    (hb : p.sect.bss = false) (hlt : p.istart < org.getD 0) : errs ≠ [] := by
  unfold output at h
  split at h
  · cases h
  split at h
  · cases h
  rename_i lma hlma
  split at h
  · cases h
  rename_i vo hvo
  unfold finish at h
  split at h
  · cases h
  split at h
  · cases h
  rename_i hov
  split at h
  · cases h
  rename_i f errs' hout
  simp only [Result.written.injEq] at h
  obtain ⟨hfile, hl, _, _, he⟩ := h
  rw [hl] at hout
  unfold outputAll at hout
  intro hcon
  rw [he, hcon] at hout
  have := (outputAll_errs l _ _ _ _ hout).2 rfl p hp hb
  omega

example : (match output (2 ^ 40) (some 0x100) [{ plain 1#8 4 with start := some 0x80 }] with
    | .written _ _ _ _ errs => errs | _ => []) = [.beforeOrigin [1#8]] := by
  decide +kernel

/-- C60 fails for a section 2^31 bytes or more after the origin: its offset is representable and passes
    the check, but the code seeks to LONG_MAX and gives up with a fatal error. -/
theorem far_section_wrong :
    output (2 ^ 44) none [{ plain 1#8 4 with start := some (2 ^ 31) }] = .fatal := by
  decide +kernel

/-- C60: a negative origin is refused. -/
theorem negative_origin (maxSeek : Nat) (org : Int) (sects : List Sect) (h : org < 0) :
    output maxSeek (some org) sects = .badOrigin := by
  unfold output
  rw [if_pos (by simpa using h)]

end Verif.Bin
