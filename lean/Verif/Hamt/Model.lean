/-
Model of libyasm/hamt.c: hash array mapped trie from C strings to data.

Strings are lists of bytes without the terminating NUL.  `unsigned long` is 64 bits (LP64).
Simplifications: the pointer-tagging (`IsSubTrie`, hamt.c:61-78) is a constructor of `Node`; entries
are numbered by their position in the (append-only) STAILQ, a leaf holds that number instead of a
pointer; `int level` is unbounded.
-/
namespace Verif.Hamt

abbrev Key := List (BitVec 8)

/-- `char` to `unsigned long` (signed `char`). -/
def charVal (c : BitVec 8) : BitVec 64 := c.signExtend 64

/-- `tolower` in the C locale. -/
def toLower (c : BitVec 8) : BitVec 8 := if 65 ≤ c.toNat ∧ c.toNat ≤ 90 then c + 32#8 else c

/-- hamt.c:80-96 the loop shared by `HashKey` (`mul` = 1) and `ReHashKey` (`mul` = Level). -/
def hashLoop (mul : BitVec 64) : List (BitVec 8) → BitVec 64 → BitVec 64 → BitVec 64
  | [], _, v => v
  | c :: cs, a, v => hashLoop mul cs (a * 27183#64) (a * v * mul + charVal c)

/-- hamt.c:80-87 `HashKey`. -/
def hashKey (s : Key) : BitVec 64 := hashLoop 1#64 s 31415#64 0#64
/-- hamt.c:89-96 `ReHashKey`. -/
def reHashKey (s : Key) (level : Nat) : BitVec 64 := hashLoop (BitVec.ofNat 64 level) s 31415#64 0#64

/-- hamt.c:51-59: the functions chosen at creation. `eqv` is `CmpKey(..) == 0`. -/
structure Cfg where
  hash : Key → BitVec 64
  rehash : Key → Nat → BitVec 64
  eqv : Key → Key → Bool

/-- hamt.c:131-140 `HAMT_create(nocase, ..)`; hamt.c:98-114 the `_nocase` hash functions;
    strcasecmp.c:45-66. -/
def Cfg.ofNocase : Bool → Cfg
  | true => { hash := fun s => hashKey (s.map toLower),
              rehash := fun s l => reHashKey (s.map toLower) l,
              eqv := fun a b => a.map toLower == b.map toLower }
  | false => { hash := hashKey, rehash := reHashKey, eqv := fun a b => a == b }

/-- util.h:132-134 `BC_MSK(c)`. -/
def bcMask (c : Nat) : BitVec 64 := BitVec.ofNat 64 ((2 ^ 64 - 1) / (2 ^ (2 ^ c) + 1))
/-- util.h:134 `BC_COUNT(x, c)`. -/
def bcCount (x : BitVec 64) (c : Nat) : BitVec 64 :=
  (x &&& bcMask c) + ((x >>> (2 ^ c)) &&& bcMask c)
/-- util.h:135-141 `BitCount(d, s)`. -/
def bitCount (s : BitVec 64) : BitVec 64 :=
  bcCount (bcCount (bcCount (bcCount (bcCount s 0) 1) 2) 3) 4

/-- `1<<keypart` as an `int`, converted to `unsigned long` (sign extension when keypart is 31). -/
def intBit (k : Nat) : BitVec 64 := (1#32 <<< k).signExtend 64

/-- hamt.c:344-345, 366-367: number of bits set below `keypart`, clamped. -/
def mapIdx (bm : BitVec 64) (k : Nat) : Nat :=
  (bitCount (bm &&& ~~~(BitVec.allOnes 64 <<< k)) &&& 0x1F#64).toNat

/-- hamt.c:337-340: number of children of a bitmap. -/
def mapSize (bm : BitVec 64) : Nat :=
  let n := (bitCount bm &&& 0x1F#64).toNat
  if n = 0 then 32 else n

/-- hamt.c:46-49 `HAMTNode`: a leaf (hash in force, entry number) or a subtrie. -/
inductive Node
  | leaf (key : BitVec 64) (idx : Nat)
  | sub (bm : BitVec 64) (ch : List Node)

/-- hamt.c:40-44,51-53. `root` is the 32-element root array (`BaseValue` 0 is `none`). -/
structure Hamt (α : Type) where
  entries : List (Key × α)
  root : Nat → Option Node

/-- hamt.c:116-143. -/
def create (α : Type) : Hamt α := ⟨[], fun _ => none⟩

/-- Outcomes: normal, not terminated within the fuel, or an out-of-bounds access. -/
inductive Out (β : Type)
  | ok (b : β)
  | diverged
  | ub
deriving Repr, DecidableEq

/-- hamt.c:322-327, 403-407: advance to the next 5 bits, rehashing when they are used up.
    The state is (key, keypartbits). -/
def advance (cfg : Cfg) (s : Key) (level : Nat) (st : BitVec 64 × Nat) : BitVec 64 × Nat :=
  if st.2 + 5 > 30 then (cfg.rehash s level, 0) else (st.1, st.2 + 5)

/-- hamt.c:328, 408: `keypart`. -/
def keypart (st : BitVec 64 × Nat) : Nat := ((st.1 >>> st.2) &&& 0x1F#64).toNat

/-- hamt.c:263-317: build the trie downward until the two keys differ.  `s`/`new` are the inserted
    string and its entry number; `t`/`old` those of the leaf being split. -/
def build (cfg : Cfg) (s : Key) (new : Nat) (t : Key) (old : Nat) :
    Nat → Nat → BitVec 64 × Nat → BitVec 64 × Nat → Out Node
  | 0, _, _, _ => .diverged
  | fuel + 1, level, st, st2 =>
    let st := advance cfg s level st
    let st2 := advance cfg t level st2
    let k := keypart st
    let k2 := keypart st2
    if k = k2 then
      match build cfg s new t old fuel (level + 1) st st2 with
      | .ok n => .ok (.sub (intBit k) [n])
      | .diverged => .diverged
      | .ub => .ub
    else
      .ok (.sub ((1#64 <<< k) ||| (1#64 <<< k2))
        (if k2 < k then [.leaf st2.1 old, .leaf st.1 new] else [.leaf st.1 new, .leaf st2.1 old]))

/-- What an insertion found: an existing entry or the need of a new one. -/
inductive Found
  | existing (idx : Nat)
  | added
deriving Repr, DecidableEq

/-- hamt.c:246-372: the descent.  Returns the updated node. `new` is the number of the new entry. -/
def insNode {α : Type} (cfg : Cfg) (ents : List (Key × α)) (s : Key) (new fuel : Nat) (level : Nat)
    (st : BitVec 64 × Nat) (n : Node) : Out (Node × Found) :=
  match n with
  | .leaf k i =>
    match ents[i]? with
    | none => .ub
    | some e =>
      if k = st.1 ∧ cfg.eqv e.1 s then .ok (.leaf k i, .existing i)
      else
        match build cfg s new e.1 i fuel level st (k, st.2) with
        | .ok n => .ok (n, .added)
        | .diverged => .diverged
        | .ub => .ub
  | .sub bm ch =>
    let st := advance cfg s level st
    let k := keypart st
    if bm &&& intBit k = 0 then
      let bm' := bm ||| intBit k
      let m := mapIdx bm' k
      if mapSize bm' = ch.length + 1 ∧ m ≤ ch.length then
        .ok (.sub bm' (ch.take m ++ .leaf st.1 new :: ch.drop m), .added)
      else .ub
    else
      let m := mapIdx bm k
      match _h : ch[m]? with
      | none => .ub
      | some c =>
        match insNode cfg ents s new fuel (level + 1) st c with
        | .ok (c', f) => .ok (.sub bm (ch.set m c'), f)
        | .diverged => .diverged
        | .ub => .ub
termination_by sizeOf n
decreasing_by
  have := List.sizeOf_lt_of_mem (List.mem_of_getElem? _h)
  simp only [Node.sub.sizeOf_spec]
  omega

/-- What `HAMT_insert` reports: returned data, `*replace` afterwards, data passed to `deletefunc`. -/
structure InsResult (α : Type) where
  returned : α
  replace : Bool
  deleted : Option α
deriving Repr, DecidableEq

/-- hamt.c:217-373 `HAMT_insert`. -/
def insert {α : Type} (cfg : Cfg) (fuel : Nat) (h : Hamt α) (s : Key) (x : α) (replace : Bool) :
    Out (Hamt α × InsResult α) :=
  let st : BitVec 64 × Nat := (cfg.hash s, 0)
  let k := keypart st
  let new := h.entries.length
  match h.root k with
  | none =>
    .ok (⟨h.entries ++ [(s, x)], fun j => if j = k then some (.leaf st.1 new) else h.root j⟩,
      ⟨x, true, none⟩)
  | some n =>
    match insNode cfg h.entries s new fuel 0 st n with
    | .diverged => .diverged
    | .ub => .ub
    | .ok (n', .added) =>
      .ok (⟨h.entries ++ [(s, x)], fun j => if j = k then some n' else h.root j⟩, ⟨x, true, none⟩)
    | .ok (_, .existing i) =>
      match h.entries[i]? with
      | none => .ub
      | some e =>
        if replace then .ok (⟨h.entries.set i (s, x), h.root⟩, ⟨x, replace, some e.2⟩)
        else .ok (h, ⟨e.2, replace, some x⟩)

/-- hamt.c:391-419: the search loop. -/
def searchNode {α : Type} (cfg : Cfg) (ents : List (Key × α)) (s : Key) (level : Nat)
    (st : BitVec 64 × Nat) (n : Node) : Out (Option α) :=
  match n with
  | .leaf k i =>
    match ents[i]? with
    | none => .ub
    | some e => if k = st.1 ∧ cfg.eqv e.1 s then .ok (some e.2) else .ok none
  | .sub bm ch =>
    let st := advance cfg s level st
    let k := keypart st
    if bm &&& intBit k = 0 then .ok none
    else
      match _h : ch[mapIdx bm k]? with
      | none => .ub
      | some c => searchNode cfg ents s (level + 1) st c
termination_by sizeOf n
decreasing_by
  have := List.sizeOf_lt_of_mem (List.mem_of_getElem? _h)
  simp only [Node.sub.sizeOf_spec]
  omega

/-- hamt.c:376-420 `HAMT_search`. -/
def search {α : Type} (cfg : Cfg) (h : Hamt α) (s : Key) : Out (Option α) :=
  let st : BitVec 64 × Nat := (cfg.hash s, 0)
  match h.root (keypart st) with
  | none => .ok none
  | some n => searchNode cfg h.entries s 0 st n

/-- hamt.c:185-197 `HAMT_traverse`: the callback threads its own state `σ`; returns the data it was
    called on, the final state and the returned value. -/
def traverse {α σ : Type} (f : σ → α → Int × σ) : List (Key × α) → σ → List α × σ × Int
  | [], st => ([], st, 0)
  | e :: es, st =>
    let r := f st e.2
    if r.1 ≠ 0 then ([e.2], r.2, r.1)
    else
      let rest := traverse f es r.2
      (e.2 :: rest.1, rest.2)

/-- A sequence of insertions from an empty table. -/
def insertAll {α : Type} (cfg : Cfg) (fuel : Nat) (h : Hamt α) : List (Key × α × Bool) → Out (Hamt α)
  | [] => .ok h
  | (s, x, r) :: ops =>
    match insert cfg fuel h s x r with
    | .ok (h', _) => insertAll cfg fuel h' ops
    | .diverged => .diverged
    | .ub => .ub

/-- hamt.c:145-161 `HAMT_delete_trie` and 163-183 `HAMT_destroy`: data handed to `deletefunc`. -/
def destroyed {α : Type} (h : Hamt α) : List α := h.entries.map (·.2)

end Verif.Hamt
