import Verif.Intnum.Model
/-
Model of the flat binary object format, modules/objfmts/bin/bin-objfmt.c: where the sections go
(start/follows/align, vstart/vfollows/valign, ORG), the overlap check and the file that is written.

Simplifications.  Addresses and lengths are integers: the code computes them with `yasm_intnum_calc`,
which is modelled with its 256-bit arithmetic in Verif.Intnum; only the rounding up
(`bin_objfmt_align`) is also modelled on intnums, as `alignIntnum`, because it relies on bit tricks.
`start`, `vstart` and ORG are the constants their expressions reduce to (a non-constant is an error
before any of this).  Section names are unique in an object (theorem `get_general_spec` of C34), so
comparing section pointers is comparing names.  A bytecode's output is given: its bytes or, for
reserved space, their number.  The warnings about alignments, the map file and the symbol check are
left out.
-/
namespace Verif.Bin
open Verif.Intnum

abbrev Byte := BitVec 8
abbrev Name := List Byte

/-- What `yasm_bc_tobytes` gives for one bytecode: bytes, or a gap. -/
inductive Piece
  | bytes (l : List Byte)
  | gap (n : Nat)
deriving Repr, DecidableEq

/-- bin-objfmt.c:36-54 `bin_section_data` with the section's name, own alignment
    (`yasm_section_get_align`), length (288-290) and contents. -/
structure Sect where
  name : Name
  bss : Bool
  ownAlign : Nat
  align : Option Nat
  valign : Option Nat
  start : Option Int
  vstart : Option Int
  follows : Option Name
  vfollows : Option Name
  length : Nat
  pieces : List Piece
deriving Repr, DecidableEq

/-- bin-objfmt.c:323-340 `bin_objfmt_align`, on intnums. -/
def alignIntnum (stale : BitVec 256) (start align : Intnum) : Intnum :=
  let m := createUint (getUint align - 1#64)
  let t := (intCalc stale m .AND (some start)).acc
  if isZero t then start
  else
    let m2 := setUint t (getUint align - 1#64)
    let m3 := (intCalc stale m2 .NOT none).acc
    let m4 := (intCalc stale m3 .AND (some start)).acc
    (intCalc stale align .ADD (some m4)).acc

/-- bin-objfmt.c:323-340 `bin_objfmt_align`, on integers, for an alignment that is a power of two
    (theorem `align_intnum_partial` relates the two). -/
def alignTo (start : Int) (align : Nat) : Int :=
  if start % align = 0 then start else align + (start - start % align)

/-- bin-objfmt.c:1530-1543 (util.h:148 `is_exp2`): is this value of `align` accepted by the section
    directive? -/
def alignAccepted (align : Intnum) : Bool := getUint align &&& (getUint align - 1#64) == 0#64

/-- bin-objfmt.c:243-245: the alignment used. -/
def Sect.lmaAlign (s : Sect) : Nat := s.align.getD (if s.ownAlign > 4 then s.ownAlign else 4)

/-- bin-objfmt.c:115-126 `bin_group` and its list links: a list of groups, each a section with the
    list of the groups that follow it. -/
inductive Forest
  | nil
  | cons (s : Sect) (follow : Forest) (rest : Forest)
deriving Repr, DecidableEq

/-- bin-objfmt.c:130-142 `find_group_by_name` (and 146-158 `find_group_by_section`, names being
    unique). -/
def Forest.find (name : Name) : Forest → Option Sect
  | .nil => none
  | .cons s follow rest =>
    if s.name = name then some s
    else (follow.find name).or (rest.find name)

/-- `TAILQ_INSERT_TAIL` of a group. -/
def Forest.snoc : Forest → Sect → Forest → Forest
  | .nil, s, own => .cons s own .nil
  | .cons t follow rest, s, own => .cons t follow (rest.snoc s own)

/-- bin-objfmt.c:1193-1195 `TAILQ_INSERT_TAIL(&found->follow_groups, …)`, `found` being the first
    group of that name. -/
def Forest.insert (name : Name) : Forest → Sect → Forest → Forest
  | .nil, _, _ => .nil
  | .cons t follow rest, s, own =>
    if t.name = name then .cons t (follow.snoc s own) rest
    else if (follow.find name).isSome then .cons t (follow.insert name s own) rest
    else .cons t follow (rest.insert name s own)

/-- `TAILQ_REMOVE` of a group from the main list. -/
def Forest.remove (name : Name) : Forest → Forest
  | .nil => .nil
  | .cons t follow rest => if t.name = name then rest else .cons t follow (rest.remove name)

/-- The follow list of a group of the main list. -/
def Forest.own (name : Name) : Forest → Forest
  | .nil => .nil
  | .cons t follow rest => if t.name = name then follow else rest.own name

/-- bin-objfmt.c:231-296, 299-315: one group for each section, in order. -/
def Forest.ofList : List Sect → Forest
  | [] => .nil
  | s :: l => .cons s .nil (Forest.ofList l)

/-- bin-objfmt.c:1168-1190: the two ways the `follows` attributes can be wrong. -/
inductive Err
  | unknown (s : Name) (follows : Name)
  | loop (s : Name) (follows : Name)
deriving Repr, DecidableEq

/-- bin-objfmt.c:1163-1197 and 1287-1322: hang each group under the one it follows.  The list is the
    part of the main list not visited yet (only the group being visited is ever removed from it). -/
def link (follows : Sect → Option Name) : List Sect → Forest → Except Err Forest
  | [], f => .ok f
  | s :: todo, f =>
    match follows s with
    | none => link follows todo f
    | some n =>
      match f.find n with
      | none => .error (.unknown s.name n)
      | some p =>
        if s.name = p.name ∨ ((f.own s.name).find p.name).isSome then .error (.loop s.name p.name)
        else link follows todo ((f.remove s.name).insert n s (f.own s.name))

/-- The groups of the main list, with their follow lists. -/
def Forest.tops : Forest → List (Sect × Forest)
  | .nil => []
  | .cons s follow rest => (s, follow) :: rest.tops

/-- bin-objfmt.c:1218-1232: insert a group that has a start before the first one with a greater
    start. -/
def insertStart (x : Int) (g : Sect × Forest) : List (Sect × Forest) → List (Sect × Forest)
  | [] => [g]
  | h :: l =>
    match h.1.start with
    | none => h :: insertStart x g l
    | some y => if y > x then g :: h :: l else h :: insertStart x g l

/-- bin-objfmt.c:1208-1233: the sorting loop: the main list and the list of nobits sections without a
    start. -/
def sortLoop : List (Sect × Forest) → List (Sect × Forest) → List (Sect × Forest) →
    List (Sect × Forest) × List (Sect × Forest)
  | [], lma, bss => (lma, bss)
  | g :: l, lma, bss =>
    match g.1.start with
    | none => if g.1.bss then sortLoop l lma (bss ++ [g]) else sortLoop l (lma ++ [g]) bss
    | some x => sortLoop l (insertStart x g lma) bss

/-- bin-objfmt.c:1199-1238: the order of the main list. -/
def sortTops (l : List (Sect × Forest)) : List (Sect × Forest) :=
  (sortLoop l [] []).1 ++ (sortLoop l [] []).2

/-- A section with its load address and, if determined so far, its virtual address. -/
structure Placed where
  sect : Sect
  istart : Int
  ivstart : Option Int
deriving Repr, DecidableEq

/-- The variables of `group_assign_start_recurse` and the sections done so far. -/
structure Assign where
  last : Int
  vdelta : Int
  out : List Placed
deriving Repr, DecidableEq

/-- bin-objfmt.c:354-369: the load address of a section that is to start at `start`. -/
def lmaOf (s : Sect) (start : Int) : Int := alignTo start s.lmaAlign

/-- bin-objfmt.c:371-391: the virtual address, as far as this pass determines it, and the new
    `vdelta`. -/
def vmaOf (s : Sect) (istart vdelta : Int) : Option Int × Int :=
  match s.vstart with
  | some v => (some v, vdelta)
  | none =>
    match s.vfollows with
    | some _ => (none, vdelta)
    | none =>
      match s.valign with
      | none => (some (istart + vdelta), vdelta)
      | some va =>
        (some (alignTo (istart + vdelta) va),
          vdelta + alignTo (istart + vdelta) va - (istart + vdelta))

/-- bin-objfmt.c:354-397: one section. -/
def placeOne (s : Sect) (start : Int) (st : Assign) : Assign :=
  { last := if lmaOf s start + s.length > st.last then lmaOf s start + s.length else st.last,
    vdelta := (vmaOf s (lmaOf s start) st.vdelta).2,
    out := st.out ++ [⟨s, lmaOf s start, (vmaOf s (lmaOf s start) st.vdelta).1⟩] }

/-- bin-objfmt.c:348-407 `group_assign_start_recurse`, for each group of a list that is to start at
    `start` (the groups following one section all start at its end). -/
def assignAll : Forest → Int → Assign → Assign
  | .nil, _, st => st
  | .cons s follow rest, start, st =>
    assignAll rest start (assignAll follow (lmaOf s start + s.length) (placeOne s start st))

/-- bin-objfmt.c:1263-1269: the groups of the main list. -/
def assignTops : List (Sect × Forest) → Int → Assign → Assign
  | [], _, st => st
  | (s, follow) :: l, start, st =>
    let st' := assignAll (.cons s follow .nil) (s.start.getD start) st
    assignTops l st'.last st'

/-- bin-objfmt.c:1155-1271: the load addresses. -/
def lmaLayout (origin : Int) (sects : List Sect) : Except Err (List Placed) :=
  match link (·.follows) sects (Forest.ofList sects) with
  | .error e => .error e
  | .ok f => .ok (assignTops (sortTops f.tops) origin ⟨origin, 0, []⟩).out

/-- The virtual address found so far for a section. -/
def ivstartOf (l : List Placed) (name : Name) : Option Int :=
  match l.find? (fun p => p.sect.name = name) with
  | none => none
  | some p => p.ivstart

/-- The outcome of the second pass: virtual addresses and the sections with a `vstart inconsistent
    with valign` error; or the null pointer dereference of bin-objfmt.c:449. -/
inductive VOut
  | done (addrs : List (Name × Int)) (bad : List Name)
  | crash
deriving Repr, DecidableEq

/-- bin-objfmt.c:421-424: the alignment of the virtual address. -/
def Sect.vmaAlign (s : Sect) : Nat := s.valign.getD s.lmaAlign

/-- bin-objfmt.c:442-456: one section: the error is reported at the line of the `vstart` expression,
    which may not exist. -/
def vplaceOne (lma : List Placed) (s : Sect) (start : Int) : VOut → VOut
  | .crash => .crash
  | .done addrs bad =>
    match ivstartOf lma s.name with
    | none => .done (addrs ++ [(s.name, alignTo start s.vmaAlign)]) bad
    | some _ =>
      if start ≠ alignTo start s.vmaAlign then
        match s.vstart with
        | none => .crash
        | some _ => .done (addrs ++ [(s.name, alignTo start s.vmaAlign)]) (bad ++ [s.name])
      else .done (addrs ++ [(s.name, alignTo start s.vmaAlign)]) bad

/-- bin-objfmt.c:415-468 `group_assign_vstart_recurse`. -/
def vassignAll (lma : List Placed) : Forest → Int → VOut → VOut
  | .nil, _, st => st
  | .cons s follow rest, start, st =>
    vassignAll lma rest start
      (vassignAll lma follow (alignTo start s.vmaAlign + s.length) (vplaceOne lma s start st))

/-- bin-objfmt.c:1332-1335: the main list; `ivstart` would be null for a section that no pass gave
    one. -/
def vassignTops (lma : List Placed) : List (Sect × Forest) → VOut → VOut
  | [], st => st
  | (s, follow) :: l, st =>
    match ivstartOf lma s.name with
    | none => .crash
    | some v => vassignTops lma l (vassignAll lma (.cons s follow .nil) v st)

/-- bin-objfmt.c:1273-1335: the virtual addresses. -/
def vmaLayout (sects : List Sect) (lma : List Placed) : Except Err VOut :=
  match link (·.vfollows) sects (Forest.ofList sects) with
  | .error e => .error e
  | .ok f => .ok (vassignTops lma f.tops (.done [] []))

/-- bin-objfmt.c:866-889: the number of bytes by which two sections overlap, if positive. -/
def overlapBy (a b : Placed) : Int :=
  if a.istart ≤ b.istart then a.istart + a.sect.length - b.istart
  else b.istart + b.sect.length - a.istart

/-- bin-objfmt.c:852-893 `check_lma_overlap` for two sections. -/
def overlaps (a b : Placed) : Bool :=
  if a.sect.name = b.sect.name then false
  else if a.sect.length = 0 ∨ b.sect.length = 0 then false
  else decide (overlapBy a b > 0)

/-- bin-objfmt.c:1344, 858-860: every section against every section. -/
def overlapFound (l : List Placed) : Bool := l.any fun a => l.any fun b => overlaps b a

/-- bin-objfmt.c:33 `REGULAR_OUTBUF_SIZE`. -/
def outbufSize : Nat := 1024

/-- bin-objfmt.c:993-1006: reserved space is written as zeros, in chunks. -/
def zeroChunks (left : Nat) : List (List Byte) :=
  if left > outbufSize then List.replicate outbufSize 0#8 :: zeroChunks (left - outbufSize)
  else [List.replicate left 0#8]
termination_by left
decreasing_by unfold outbufSize at *; omega

/-- bin-objfmt.c:975-1017 `bin_objfmt_output_bytecode`: the blocks written for one bytecode. -/
def pieceBlocks : Piece → List (List Byte)
  | .bytes l => if l.length = 0 then [] else [l]
  | .gap n => if n = 0 then [] else zeroChunks n

/-- The file: its bytes and the position. -/
structure File where
  data : List Byte
  pos : Nat
deriving Repr, DecidableEq

/-- `fwrite` (standard C): the bytes replace those at the position; a hole left by an earlier seek
    beyond the end reads as zeros; writing nothing changes nothing. -/
def File.write (f : File) (l : List Byte) : File :=
  if l.length = 0 then f
  else
    { data := f.data.take f.pos ++ List.replicate (f.pos - f.data.length) 0#8 ++ l ++
        f.data.drop (f.pos + l.length),
      pos := f.pos + l.length }

/-- The errors and the fatal error of bin-objfmt.c:1064-1080. -/
inductive OutErr
  | beforeOrigin (s : Name)
  | tooLarge (s : Name)
deriving Repr, DecidableEq

/-- The state of the output loop. -/
inductive Out
  | going (f : File) (errs : List OutErr)
  | fatal
deriving Repr, DecidableEq

/-- bin-objfmt.c:1077-1078: where the code seeks: `yasm_intnum_get_int` (theorem `get_int_partial` of
    C13) gives LONG_MAX from 2^31 on. -/
def seekTo (offset : Int) : Int := if offset < 2 ^ 31 then offset else 2 ^ 63 - 1

/-- bin-objfmt.c:1051-1087 `bin_objfmt_output_section`.  `maxSeek` is the largest position the file
    system accepts. -/
def outputSection (maxSeek : Nat) (origin : Int) (p : Placed) : Out → Out
  | .fatal => .fatal
  | .going f errs =>
    if p.sect.bss then .going f errs
    else if p.istart - origin < 0 then .going f (errs ++ [.beforeOrigin p.sect.name])
    else if p.istart - origin ≥ 2 ^ 63 then .going f (errs ++ [.tooLarge p.sect.name])
    else if seekTo (p.istart - origin) > maxSeek then .fatal
    else
      .going ((p.sect.pieces.flatMap pieceBlocks).foldl File.write
        ⟨f.data, (seekTo (p.istart - origin)).toNat⟩) errs

/-- bin-objfmt.c:1352: every section, in the order of the object. -/
def outputAll (maxSeek : Nat) (origin : Int) (l : List Placed) : Out :=
  l.foldl (fun o p => outputSection maxSeek origin p o) (.going ⟨[], 0⟩ [])

/-- The placed sections in the order of the object. -/
def inOrder (sects : List Sect) (l : List Placed) : List Placed :=
  sects.filterMap fun s => l.find? (fun p => p.sect.name = s.name)

/-- The outcome of `bin_objfmt_output`. -/
inductive Result
  | badOrigin
  | badFollows (e : Err)
  | badVfollows (e : Err)
  | crash
  | overlap
  | fatal
  | written (file : List Byte) (lma : List Placed) (vma : List (Name × Int)) (badV : List Name)
      (errs : List OutErr)
deriving Repr, DecidableEq

/-- bin-objfmt.c:1340-1352: the check for overlaps and the output. -/
def finish (maxSeek : Nat) (origin : Int) (sects : List Sect) (lma : List Placed) : VOut → Result
  | .crash => .crash
  | .done addrs bad =>
    if overlapFound (inOrder sects lma) then .overlap
    else
      match outputAll maxSeek origin (inOrder sects lma) with
      | .fatal => .fatal
      | .going f errs => .written f.data (inOrder sects lma) addrs bad errs

/-- bin-objfmt.c:1106-1357 `bin_objfmt_output`. -/
def output (maxSeek : Nat) (org : Option Int) (sects : List Sect) : Result :=
  if org.getD 0 < 0 then .badOrigin
  else
    match lmaLayout (org.getD 0) sects with
    | .error e => .badFollows e
    | .ok lma =>
      match vmaLayout sects lma with
      | .error e => .badVfollows e
      | .ok v => finish maxSeek (org.getD 0) sects lma v

end Verif.Bin
