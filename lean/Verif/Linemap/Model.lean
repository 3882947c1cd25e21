/-
Model of libyasm/linemap.c (virtual line -> physical line mapping).

Simplifications: `unsigned long` is `Nat` for virtual lines and `Int` for computed physical lines
(no wrap-around at 2^64); file names are compared as strings (the C stores a shared copy obtained
from a HAMT, linemap.c:126-133); allocation never fails.
-/
namespace Verif.Linemap

/-- linemap.c:36-47 `struct line_mapping`. -/
structure Mapping where
  line : Nat
  filename : String
  fileLine : Int
  lineInc : Int
deriving Repr, DecidableEq

/-- linemap.c:49-55 `struct line_source_info`; `bc` is an opaque bytecode identity. -/
structure SourceInfo where
  bc : Option Nat
  source : Option String
deriving Repr, DecidableEq

/-- linemap.c:57-72 `struct yasm_linemap`; the vector is the list of its first `map_size` entries,
    `sources` is the list of all `source_info_size` entries. -/
structure Linemap where
  current : Nat
  maps : List Mapping
  sources : List SourceInfo
deriving Repr, DecidableEq

/-- linemap.c:163-188 `yasm_linemap_create`. -/
def create : Linemap :=
  { current := 1, maps := [], sources := [⟨none, none⟩, ⟨none, none⟩] }

/-- linemap.c:94-103: the loop `for (i = map_size; i > 0; i--)` looking for an entry with
    `map_vector[i-1].line < virtual_line`; `some i` is the `i` at `break`, `none` is falling off. -/
def scanBack (maps : List Mapping) (vl : Nat) : Nat → Option Nat
  | 0 => none
  | i + 1 =>
    match maps[i]? with
    | none => none   -- unreachable: i < map_size
    | some m => if m.line < vl then some (i + 1) else scanBack maps vl i

/-- linemap.c:90-115: the entries that survive in front of the entry about to be filled.
    When the loop breaks with `i < map_size`, entry `i` is overwritten and the vector cut to `i+1`;
    otherwise a new entry is appended (also when the loop finds no smaller line). -/
def keep (maps : List Mapping) (vl : Nat) : List Mapping :=
  match scanBack maps vl maps.length with
  | some i => if i < maps.length then maps.take i else maps
  | none => maps

/-- linemap.c:117-133: the file name stored in the filled entry. -/
def chooseName (kept : List Mapping) (filename : Option String) : String :=
  match filename with
  | some f => f
  | none =>
    match kept.getLast? with
    | some m => m.filename
    | none => "unknown"

/-- linemap.c:80-138 `yasm_linemap_set`. -/
def set (lm : Linemap) (filename : Option String) (virtualLine : Nat) (fileLine lineInc : Int) :
    Linemap :=
  let vl := if virtualLine = 0 then lm.current else virtualLine
  let kept := keep lm.maps vl
  { lm with maps := kept ++ [⟨vl, chooseName kept filename, fileLine, lineInc⟩] }

/-- linemap.c:239-243 `yasm_linemap_goto_next` (the return value is the new `current`). -/
def gotoNext (lm : Linemap) : Linemap := { lm with current := lm.current + 1 }

/-- linemap.c:140-161 `yasm_linemap_poke`.  Note that `mapping` is the entry just filled by the
    first `set`, not the one that was in force before.  Returns the poked line. -/
def poke (lm : Linemap) (filename : Option String) (fileLine : Int) : Option (Nat × Linemap) :=
  let lm1 := set (gotoNext lm) filename 0 fileLine 0
  match lm1.maps.getLast? with
  | none => none  -- unreachable: `set` leaves a nonempty vector
  | some m =>
    let line := lm1.current
    let lm2 := gotoNext lm1
    some (line, set lm2 (some m.filename) 0
      (m.fileLine + m.lineInc * ((lm2.current : Int) - 2 - m.line)) m.lineInc)

/-- linemap.c:256-259: `step = 1; while (step*2 <= map_size) step *= 2`. `fuel` bounds the loop. -/
def startStep (size : Nat) : Nat → Nat → Nat
  | 0, step => step
  | fuel + 1, step => if step * 2 ≤ size then startStep size fuel (step * 2) else step

/-- linemap.c:261-263: one comparison of the search. -/
def probe (maps : List Mapping) (line vindex step : Nat) : Nat :=
  match maps[vindex + step]? with
  | some m => if m.line ≤ line then vindex + step else vindex
  | none => vindex

/-- linemap.c:260-265: the halving loop (structural in a fuel that is at least the number of bits
    of `step`; when `step` reaches 0 the loop ends). -/
def search (maps : List Mapping) (line : Nat) : Nat → Nat → Nat → Nat
  | 0, _, vindex => vindex
  | fuel + 1, step, vindex =>
    if step = 0 then vindex
    else search maps line fuel (step / 2) (probe maps line vindex step)

/-- linemap.c:245-270 `yasm_linemap_lookup`.  `none`: the vector is empty and the C reads an
    uninitialised entry. -/
def lookup (lm : Linemap) (line : Nat) : Option (String × Int) :=
  let size := lm.maps.length
  let vindex := search lm.maps line (size + 1) (startStep size size 1) 0
  match lm.maps[vindex]? with
  | none => none
  | some m =>
    some (m.filename, if line = 0 then 0 else m.fileLine + m.lineInc * ((line : Int) - m.line))

/-- linemap.c:220-229: doubling of `source_info` until `current <= source_info_size`. -/
def growSources (current : Nat) : Nat → List SourceInfo → List SourceInfo
  | 0, s => s
  | fuel + 1, s =>
    if current > s.length then growSources current fuel (s ++ List.replicate s.length ⟨none, none⟩)
    else s

/-- linemap.c:214-237 `yasm_linemap_add_source`. -/
def addSource (lm : Linemap) (bc : Option Nat) (src : String) : Linemap :=
  let s := growSources lm.current lm.current lm.sources
  { lm with sources := s.set (lm.current - 1) ⟨bc, some src⟩ }

/-- linemap.c:279-293 `yasm_linemap_get_source`; `none` = returns 1 (no source).
    Line 0 indexes `source_info[-1]` in C; it is a separate outcome here. -/
inductive SrcResult
  | undefinedBehaviour
  | notFound
  | found (bc : Option Nat) (src : String)
deriving Repr, DecidableEq

def getSource (lm : Linemap) (line : Nat) : SrcResult :=
  if line > lm.sources.length then .notFound
  else if line = 0 then .undefinedBehaviour
  else
    match lm.sources[line - 1]? with
    | some ⟨bc, some s⟩ => .found bc s
    | _ => .notFound

/-- One call of the public interface. -/
inductive Op
  | set (filename : Option String) (virtualLine : Nat) (fileLine lineInc : Int)
  | next
  | source (bc : Option Nat) (src : String)
deriving Repr, DecidableEq

def step (lm : Linemap) : Op → Linemap
  | .set f v fl inc => Linemap.set lm f v fl inc
  | .next => gotoNext lm
  | .source bc s => addSource lm bc s

def run (lm : Linemap) (ops : List Op) : Linemap := ops.foldl step lm

end Verif.Linemap
