import Verif.Intnum.Model
import Verif.Bytecode.Fill
/-
libyasm's generic bytecodes: align, org, reserve, incbin and data, and the emission loop.

Simplifications: `unsigned long` is `Nat` here (no wrap at 2^64).  Expressions are represented by what
`yasm_expr_get_intnum` returns for them.
-/
namespace Verif.Bytecode
open Verif.Intnum (Intnum getSized getLeb128 sizeLeb128 getUint)

/-- What a C function did: returned, reported an error through `yasm_error_set`, hit
    `yasm_internal_error`, or did something undefined. -/
inductive Res (α : Type) where
  | ok (a : α)
  | err (msg : String)
  | fault
  | ub
  deriving DecidableEq, Repr

def Res.bind {α β} (r : Res α) (f : α → Res β) : Res β :=
  match r with
  | .ok a => f a
  | .err m => .err m
  | .fault => .fault
  | .ub => .ub

/-! ## align -/

/-- bc-align.c:145-148 and 178-180: the end of the padding for boundary `b` (nonzero) from offset `n`;
    `n & ~(b-1)` is `n` minus `n & (b-1)`. -/
def alignEnd (b n : Nat) : Nat :=
  if n &&& (b - 1) ≠ 0 then (n - (n &&& (b - 1))) + b else n

/-- bc-align.c:153-160 and 183-188: the padding exceeds the max skip. -/
def skips (maxskip : Option Nat) (len : Nat) : Bool :=
  match maxskip with
  | some k => decide (len > k)
  | none => false

/-- bc-align.c:132-163 `bc_align_expand`: the length; `maxskip = none` is a NULL max skip. -/
def alignLen (b : Nat) (maxskip : Option Nat) (n : Nat) : Nat :=
  if b = 0 then 0
  else
    let len := alignEnd b n - n
    if skips maxskip len then 0 else len

/-- bc-align.c:202-204: the longest pattern of a code fill table; entries past the table are NULL. -/
def fillMax (t : FillTable) : Nat → Nat
  | 0 => 0
  | n + 1 => match t.getD (n + 1) none with
    | some _ => n + 1
    | none => fillMax t n

/-- `memcpy(*bufp, code_fill[n], n)`: the pattern's first `n` bytes. -/
def fillCopy (t : FillTable) (n : Nat) : Res (List Byte) :=
  match t.getD n none with
  | some p => if n ≤ p.length then .ok (p.take n) else .ub
  | none => .ub

/-- bc-align.c:211-216: the loop copying the longest pattern. -/
def fillLoop (t : FillTable) (maxlen : Nat) : Nat → Nat → Res (List Byte × Nat)
  | 0, len => .ok ([], len)
  | fuel + 1, len =>
    if len > maxlen then
      (fillCopy t maxlen).bind fun a => (fillLoop t maxlen fuel (len - maxlen)).bind fun b => .ok (a ++ b.1, b.2)
    else .ok ([], len)

/-- bc-align.c:200-226: code fill of `len` bytes. -/
def codeFill (t : FillTable) (len : Nat) : Res (List Byte) :=
  let maxlen := fillMax t 15
  if maxlen = 0 then .err "could not find any code alignment size"
  else (fillLoop t maxlen len len).bind fun r =>
    match t.getD r.2 none with
    | none => .err "invalid alignment size"
    | some _ => (fillCopy t r.2).bind fun a => .ok (r.1 ++ a)

/-- The contents of an align bytecode after finalisation (bc-align.c:33-46). -/
structure Align where
  boundary : Nat
  fill : Option Nat
  maxskip : Option Nat
  code : Option FillTable

/-- bc-align.c:166-232 `bc_align_tobytes` at offset `off`. -/
def alignBytes (a : Align) (off : Nat) : Res (List Byte) :=
  if a.boundary = 0 then .ok []
  else
    let len := alignEnd a.boundary off - off
    if len = 0 then .ok []
    else if skips a.maxskip len then .ok []
    else match a.fill with
      | some v => .ok (List.replicate len (BitVec.ofNat 8 v))
      | none => match a.code with
        | some t => codeFill t len
        | none => .ok (List.replicate len 0)

/-! ## org -/

/-- bc-org.c:104-120 `bc_org_expand`. -/
def orgLen (start n : Nat) : Res Nat :=
  if n > start then .err "ORG overlap with already existing data" else .ok (start - n)

/-- bc-org.c:122-141 `bc_org_tobytes`: `YASM_WRITE_8` keeps the low byte of the fill value. -/
def orgBytes (start fill off : Nat) : Res (List Byte) :=
  if off > start then .err "ORG overlap with already existing data"
  else .ok (List.replicate (start - off) (BitVec.ofNat 8 fill))

/-! ## incbin -/

/-- bc-incbin.c:130-195 `bc_incbin_calc_len` for constant start and maximum length; `file = none`: it
    cannot be opened.  (Truncation of start/maxlen by `yasm_intnum_get_uint` is in `Verif.Intnum`.) -/
def incbinLen (file : Option (List Byte)) (start maxlen : Option Nat) : Res Nat :=
  match file with
  | none => .err "unable to open file"
  | some f =>
    let s := start.getD 0
    let s := if s > f.length then f.length else s
    let flen := f.length - s
    .ok (match maxlen with
      | some m => if m < flen then m else flen
      | none => flen)

/-- bc-incbin.c:197-250 `bc_incbin_tobytes`: reads `len` bytes at `start`; seeking past the end of a
    file succeeds and reads nothing. -/
def incbinBytes (file : Option (List Byte)) (start : Option Nat) (len : Nat) : Res (List Byte) :=
  match file with
  | none => .err "unable to open file"
  | some f =>
    let bs := (f.drop (start.getD 0)).take len
    if bs.length < len then .err "unable to read" else .ok bs

/-! ## data -/

/-- A repeat count of a data item: what `yasm_expr_get_intnum` and `yasm_intnum_get_uint` make of its
    expression (bc-data.c:501-521). -/
inductive Mul where
  | unknown
  | known (n : Int)
  deriving DecidableEq, Repr

inductive Kind where
  | value | uleb | sleb
  deriving DecidableEq, Repr

/-- A data item (bytecode.h `yasm_dataval`, bc-data.c:32-57).  For `expr`, `c` is the constant the
    expression is at creation time, if it is one, and `x` identifies the expression. -/
inductive Item where
  | empty
  | expr (k : Kind) (c : Option Intnum) (x : Nat)
  | raw (bs : List Byte)
  | reserve
  deriving DecidableEq, Repr

structure Dv where
  item : Item
  mult : Option Mul
  deriving DecidableEq, Repr

/-- A `yasm_dataval` allocated by the first pass of `yasm_bc_create_data`: a buffer of `len`
    uninitialised bytes, or one to be filled with a value. -/
inductive Slot where
  | raw (len : Nat) (mult : Option Mul)
  | expr (mult : Option Mul)
  deriving DecidableEq, Repr

/-- A finished `yasm_dataval`; `none` bytes were never written. -/
inductive OutDv where
  | raw (bs : List (Option Byte)) (mult : Option Mul)
  | expr (k : Kind) (x size : Nat) (mult : Option Mul)
  | uninit (mult : Option Mul)
  deriving DecidableEq, Repr

/-- bc-data.c:284, 331, 350, 404: `dv->multiple && dv->type != DV_EMPTY`. -/
def Dv.flushes (d : Dv) : Bool := d.mult.isSome && d.item ≠ .empty

/-- A flush point of the first pass (bc-data.c:284-289, 331-337): a buffer for the `len` bytes so far. -/
def flush (len : Nat) (mult : Option Mul) (slots : List Slot) : List Slot :=
  if len > 0 then .raw len mult :: slots else slots

/-- bc-data.c:295-302, 364-378: the item is emitted into the buffer now. -/
def inlined (arch : Bool) (size : Nat) (k : Kind) (c : Option Intnum) : Bool :=
  match k with
  | .value => c.isSome && (arch || size == 1)
  | _ => c.isSome

/-- bc-data.c:290-329: bytes an item adds to the buffer; division by a zero size is undefined. -/
def itemLen (arch : Bool) (size : Nat) (d : Dv) : Res Nat :=
  match d.item with
  | .empty => .ok 0
  | .expr k c _ => match k, c with
    | .value, some _ => if arch || size == 1 then .ok size else .ok 0
    | .uleb, some i => .ok (sizeLeb128 i false).toNat
    | .sleb, some i => .ok (sizeLeb128 i true).toNat
    | _, none => .ok 0
  | .raw bs => if size = 0 then .ub else .ok ((bs.length + size - 1) / size * size)
  | .reserve => .ok size

/-- The item gets a slot of its own (bc-data.c:303-315). -/
def separate (arch : Bool) (size : Nat) (d : Dv) : Bool :=
  match d.item with
  | .expr k c _ => !inlined arch size k c
  | _ => false

/-- bc-data.c:280-346: the first pass, from `len` bytes pending; the slots it appends from here on. -/
def pass1 (arch : Bool) (size : Nat) (az : Bool) : List Dv → Nat → Res (List Slot)
  | [], len => .ok (flush len none [])
  | d :: ds, len =>
    (itemLen arch size d).bind fun n =>
      let pending := if d.flushes && len > 0 then 0 else len
      let before := if d.flushes then flush len none [] else []
      if separate arch size d then
        -- the pending bytes get a slot, then the value
        (pass1 arch size az ds (if az then 1 else 0)).bind fun rest =>
          .ok (before ++ flush pending none [] ++ Slot.expr d.mult :: rest)
      else
        let len' := pending + n
        if d.flushes && len' > 0 then
          (pass1 arch size az ds (if az then 1 else 0)).bind fun rest =>
            .ok (before ++ Slot.raw len' d.mult :: rest)
        else
          (pass1 arch size az ds (if az then len' + 1 else len')).bind fun rest => .ok (before ++ rest)

/-- State of the second pass: finished slots, the remaining slots (the first is `dvo`) and the bytes
    written so far into `dvo`'s buffer (`len` of them). -/
structure P2 where
  done : List OutDv
  slots : List Slot
  buf : List Byte
  deriving DecidableEq, Repr

def sealSlot (s : Slot) (buf : List Byte) : OutDv :=
  match s with
  | .raw len m => .raw (buf.map some ++ List.replicate (len - buf.length) none) m
  | .expr m => .uninit m

/-- `dvo = STAILQ_NEXT(dvo, link); len = 0` -/
def P2.next (p : P2) : Res P2 :=
  match p.slots with
  | [] => .ub
  | s :: r => .ok ⟨p.done ++ [sealSlot s p.buf], r, []⟩

/-- `if (len > 0) dvo = STAILQ_NEXT(dvo, link), len = 0` -/
def P2.nextIf (p : P2) (c : Bool) : Res P2 := if c && p.buf.length > 0 then p.next else .ok p

/-- Bytes written at `dvo->data.raw.contents[len]`: undefined if there is no `dvo`, if it is not a
    buffer, or past its end.  Copying nothing through the uninitialised pointer of a value slot is taken
    to be harmless. -/
def P2.write (p : P2) (bs : List Byte) : Res P2 :=
  match p.slots with
  | [] => .ub
  | .expr _ :: _ => if bs = [] then .ok p else .ub
  | .raw len _ :: _ => if p.buf.length + bs.length ≤ len then .ok { p with buf := p.buf ++ bs } else .ub

/-- bc-data.c:379-386: `dvo->type = dv->type; dvo->data.val = …; dvo = next`. -/
def P2.value (p : P2) (k : Kind) (x size : Nat) : Res P2 :=
  match p.slots with
  | [] => .ub
  | .raw _ m :: r => .ok ⟨p.done ++ [.expr k x size m], r, []⟩
  | .expr m :: r => .ok ⟨p.done ++ [.expr k x size m], r, []⟩

/-- bc-data.c:366-369 `yasm_intnum_get_sized` / `yasm_arch_intnum_tobytes` (x86bc.c:1056-1064: the same)
    into a `size`-byte field. -/
def sized (i : Intnum) (size : Nat) : Res (List Byte) :=
  match getSized i (List.replicate size 0) (size * 8) 0 false 1 with
  | some r => .ok r.buf
  | none => .fault

def lebBytes (i : Intnum) (sgn : Bool) : Res (List Byte) :=
  match getLeb128 i sgn with
  | some bs => .ok bs
  | none => .ub

/-- bc-data.c:387-398: zero padding of a string to a multiple of the element size. -/
def pad (size : Nat) (bs : List Byte) : List Byte :=
  let r := bs.length % size
  if r > 0 then List.replicate (size - r) 0 else []

/-- bc-data.c:356-403: the switch of the second pass. -/
def P2.item (arch : Bool) (size : Nat) (p : P2) (d : Dv) : Res P2 :=
  match d.item with
  | .empty => .ok p
  | .expr k c x => match k, c with
    | .value, some i =>
      if arch || size == 1 then (sized i size).bind p.write
      else (p.nextIf true).bind fun p => p.value k x size
    | .uleb, some i => (lebBytes i false).bind p.write
    | .sleb, some i => (lebBytes i true).bind p.write
    | _, none => (p.nextIf true).bind fun p => p.value k x size
  | .raw bs => if size = 0 then .ub else (p.write bs).bind fun p => p.write (pad size bs)
  | .reserve => p.write (List.replicate size 0)

/-- bc-data.c:349-412: one iteration of the second loop. -/
def P2.step (arch : Bool) (size : Nat) (az : Bool) (p : P2) (d : Dv) : Res P2 :=
  (p.nextIf d.flushes).bind fun p => (p.item arch size d).bind fun p => (p.nextIf d.flushes).bind fun p =>
    if az then p.write [0] else .ok p

/-- bc-data.c:349-415: the second loop, `while (dv && dvo)`. -/
def pass2 (arch : Bool) (size : Nat) (az : Bool) : List Dv → P2 → Res P2
  | [], p => .ok p
  | d :: ds, p => if p.slots = [] then .ok p else (p.step arch size az d).bind (pass2 arch size az ds)

/-- The slots left when the second loop ends. -/
def P2.finish (p : P2) : List OutDv :=
  match p.slots with
  | [] => p.done
  | s :: r => p.done ++ sealSlot s p.buf :: r.map (sealSlot · [])

/-- bc-data.c:262-418 `yasm_bc_create_data`. -/
def createData (size : Nat) (az arch : Bool) (dvs : List Dv) : Res (List OutDv) :=
  (pass1 arch size az dvs 0).bind fun slots =>
    (pass2 arch size az dvs ⟨[], slots, []⟩).bind fun p => .ok p.finish

/-- bc-data.c:420-442 `yasm_bc_create_leb128`: values become LEB128 items; a string is reported, and
    then handed on. -/
def createLeb (sgn : Bool) (dvs : List Dv) : Option String × Res (List OutDv) :=
  let conv : Dv → Dv := fun d => match d.item with
    | .expr .value c x => { d with item := .expr (if sgn then .sleb else .uleb) c x }
    | _ => d
  (if dvs.any (fun d => match d.item with | .raw _ => true | _ => false)
    then some "LEB128 does not allow string constants" else none,
   createData 0 false false (dvs.map conv))

/-- bc-data.c:136-147: finalising a multiple.  `yasm_value_finalize` (value.c:509-516, 546-552) turns a
    constant zero into a NULL expression. -/
def finalizeMul : Option Mul → Option Mul
  | some (.known 0) => none
  | m => m

def OutDv.finalize : OutDv → OutDv
  | .raw bs m => .raw bs (finalizeMul m)
  | .expr k x s m => .expr k x s (finalizeMul m)
  | .uninit m => .uninit (finalizeMul m)

/-- bc-data.c:501-521 `yasm_dv_get_multiple`. -/
def getMul : Option Mul → Except String Nat
  | none => .ok 1
  | some .unknown => .error "could not determine multiple"
  | some (.known n) => if n < 0 then .error "multiple is negative" else .ok n.toNat

/-- What the rest of the program knows when lengths are computed and bytes are emitted: the constants
    that expressions turned out to be (for LEB128), and the object format's output function. -/
structure Env where
  const : Nat → Option Intnum
  out : Nat → Nat → Option (List Byte)

def OutDv.mult : OutDv → Option Mul
  | .raw _ m => m
  | .expr _ _ _ m => m
  | .uninit m => m

/-- bc-data.c:173-197: length of one item, without its multiple. -/
def OutDv.len (env : Env) : OutDv → Res Nat
  | .raw bs _ => .ok bs.length
  | .expr .value _ size _ => .ok size
  | .expr .uleb x _ _ => match env.const x with
    | some i => .ok (sizeLeb128 i false).toNat
    | none => .fault
  | .expr .sleb x _ _ => match env.const x with
    | some i => .ok (sizeLeb128 i true).toNat
    | none => .fault
  | .uninit _ => .ub

/-- bc-data.c:162-203 `bc_data_calc_len`; an error in the multiple leaves the length unmultiplied. -/
def dataLen (env : Env) : List OutDv → Res Nat
  | [] => .ok 0
  | d :: ds => (d.len env).bind fun n => (dataLen env ds).bind fun r =>
    .ok ((match getMul d.mult with | .ok m => n * m | .error _ => n) + r)

/-- Reading a buffer: an uninitialised byte is undefined. -/
def readBuf : List (Option Byte) → Res (List Byte)
  | [] => .ok []
  | none :: _ => .ub
  | some b :: bs => (readBuf bs).bind fun r => .ok (b :: r)

/-- bc-data.c:219-256: one copy of one item.  After a LEB128 item the code falls through to the reserve
    case, which writes `size` more zero bytes (`size` is 0 for LEB128 items). -/
def OutDv.bytes (env : Env) : OutDv → Res (List Byte)
  | .raw bs _ => readBuf bs
  | .expr .value x size _ => match env.out x size with
    | some bs => .ok bs
    | none => .err "output_value failed"
  | .expr .uleb x size _ => match env.const x with
    | some i => (lebBytes i false).bind fun b => .ok (b ++ List.replicate size 0)
    | none => .fault
  | .expr .sleb x size _ => match env.const x with
    | some i => (lebBytes i true).bind fun b => .ok (b ++ List.replicate size 0)
    | none => .fault
  | .uninit _ => .ub

/-- bc-data.c:205-260 `bc_data_tobytes`.  (`m` copies of a LEB128 item are written as `m` encodings and
    then `m` times `size = 0` bytes; the order does not matter as the latter are empty.) -/
def dataBytes (env : Env) : List OutDv → Res (List Byte)
  | [] => .ok []
  | d :: ds => match getMul d.mult with
    | .error _ => dataBytes env ds
    | .ok m => if m = 0 then dataBytes env ds else
      (d.bytes env).bind fun b => (dataBytes env ds).bind fun r => .ok ((List.replicate m b).flatten ++ r)

/-! ## Emission -/

/-- What a bytecode's `tobytes` callback does at a given offset; `reserve` bytecodes are special. -/
inductive Emitter where
  | reserve
  | bytes (f : Res (List Byte))

/-- bytecode.c:352-372 `yasm_bc_get_multiple`; `none` is a NULL multiple. -/
def bcMultiple : Option Mul → Except String Int
  | none => .ok 1
  | some .unknown => .error "could not determine multiple"
  | some (.known n) => if n < 0 then .error "multiple is negative" else .ok n

/-- What `yasm_bc_tobytes` hands back: `size` bytes, a gap, or nothing. -/
inductive Emitted where
  | nothing
  | gap (size : Nat)
  | bytes (bs : List Byte)
  deriving DecidableEq, Repr

/-- bytecode.c:330-340: the copies, each checked against the length used for layout; a callback that
    reports an error leaves the pointer where it is. -/
def copies (f : Res (List Byte)) (len : Nat) : Nat → Res (List Byte)
  | 0 => .ok []
  | n + 1 => match f with
    | .ok b => if b.length ≠ len then .fault else (copies f len n).bind fun r => .ok (b ++ r)
    | .err _ => copies f len n
    | .fault => .fault
    | .ub => .ub

/-- bytecode.c:300-350 `yasm_bc_tobytes` for a bytecode of length `len`. -/
def bcBytes (e : Emitter) (len : Nat) (mult : Option Mul) : Res Emitted :=
  match bcMultiple mult with
  | .error _ => .ok .nothing
  | .ok m => if m = 0 then .ok .nothing else
    match e with
    | .reserve => .ok (.gap (len * m.toNat))
    | .bytes f => (copies f len m.toNat).bind fun bs => .ok (.bytes bs)

end Verif.Bytecode
