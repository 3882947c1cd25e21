/-
Model of yasm_unescape_cstring (libyasm/file.c:118-181): in-place decoding of the escapes of a C string.

Bytes are naturals below 256.  The buffer is mutated in place through two indices, the reading one `s`
and the writing one `o`, exactly as the two pointers are; a read or a write at or beyond the given length
is the outcome `none`, so that its absence is something to prove.
-/

namespace Verif.File

/-- isxdigit in the C locale. -/
def isxdigit (c : Nat) : Bool :=
  (48 ≤ c && c ≤ 57) || (65 ≤ c && c ≤ 70) || (97 ≤ c && c ≤ 102)

/-- isdigit in the C locale. -/
def isdigit (c : Nat) : Bool := 48 ≤ c && c ≤ 57

/-- The digit value strtoul gives a hexadecimal digit (file.c:149). -/
def hexDigit (c : Nat) : Nat :=
  if c ≤ 57 then c - 48 else if c ≤ 70 then c - 55 else c - 87

/-- `*p` for a pointer `p = str + i`; `none` outside the given length. -/
def rd (len : Nat) (mem : List Nat) (i : Nat) : Option Nat :=
  if i < len then mem[i]? else none

/-- `*p = v` (truncated to unsigned char); `none` outside the given length. -/
def wr (len : Nat) (mem : List Nat) (i v : Nat) : Option (List Nat) :=
  if i < len ∧ i < mem.length then some (mem.set i (v % 256)) else none

/-- file.c:139-141: `while (s+2 < len && isxdigit(s[0]) && isxdigit(s[1]) && isxdigit(s[2])) s++`. -/
def skipHex (len : Nat) (mem : List Nat) (s : Nat) : Option Nat :=
  if s + 2 < len then
    match rd len mem s with
    | none => none
    | some a =>
      if isxdigit a then
        match rd len mem (s + 1) with
        | none => none
        | some b =>
          if isxdigit b then
            match rd len mem (s + 2) with
            | none => none
            | some c => if isxdigit c then skipHex len mem (s + 1) else some s
          else some s
      else some s
  else some s
termination_by len - s

/-- file.c:142-151: the value of the last two digits; `s` is already past the skipped ones. -/
def hexTail (len : Nat) (mem : List Nat) (s : Nat) : Option (Nat × Nat) :=
  if s < len then
    match rd len mem s with
    | none => none
    | some a =>
      if isxdigit a then
        if s + 1 < len then
          match rd len mem (s + 1) with
          | none => none
          | some b =>
            if isxdigit b then some (hexDigit a * 16 + hexDigit b, s + 2) else some (hexDigit a, s + 1)
        else some (hexDigit a, s + 1)
      else some (0, s)
  else some (0, s)

/-- The state of the loop. -/
structure U where
  mem : List Nat
  s : Nat
  o : Nat
  /-- Number of "octal value out of range" warnings set. -/
  warns : Nat
deriving DecidableEq, Repr

/-- file.c:154-176: the octal escape; `s` at its first digit. -/
def octal (len : Nat) (u : U) : Option U :=
  match rd len u.mem u.s with
  | none => none
  | some a =>
    match wr len u.mem u.o (a - 48) with
    | none => none
    | some m1 =>
      if u.s + 1 < len then
        match rd len m1 (u.s + 1) with
        | none => none
        | some b =>
          if isdigit b then
            match rd len m1 u.o with
            | none => none
            | some v =>
              match wr len m1 u.o (v * 8 % 256 + (b - 48)) with
              | none => none
              | some m2 =>
                if u.s + 2 < len then
                  match rd len m2 (u.s + 2) with
                  | none => none
                  | some c =>
                    if isdigit c then
                      match rd len m2 u.o with
                      | none => none
                      | some w =>
                        match wr len m2 u.o (w * 8 % 256 + (c - 48)) with
                        | none => none
                        | some m3 =>
                          some ⟨m3, u.s + 3, u.o + 1,
                            u.warns + if a > 55 ∨ b > 55 ∨ c > 55 then 1 else 0⟩
                    else some ⟨m2, u.s + 2, u.o + 1, u.warns + if a > 55 ∨ b > 55 then 1 else 0⟩
                else some ⟨m2, u.s + 2, u.o + 1, u.warns + if a > 55 ∨ b > 55 then 1 else 0⟩
          else some ⟨m1, u.s + 1, u.o + 1, u.warns + if a > 55 then 1 else 0⟩
      else some ⟨m1, u.s + 1, u.o + 1, u.warns + if a > 55 then 1 else 0⟩

/-- `*o = v` and `o++`, the reader at `s`. -/
def put (len : Nat) (u : U) (v s : Nat) : Option U :=
  match wr len u.mem u.o v with
  | none => none
  | some m => some ⟨m, s, u.o + 1, u.warns⟩

/-- file.c:127-177: the escape whose character after the backslash is at `u.s`. -/
def escape (len : Nat) (u : U) : Option U :=
  match rd len u.mem u.s with
  | none => none
  | some c =>
    if c = 98 then put len u 8 (u.s + 1)
    else if c = 102 then put len u 12 (u.s + 1)
    else if c = 110 then put len u 10 (u.s + 1)
    else if c = 114 then put len u 13 (u.s + 1)
    else if c = 116 then put len u 9 (u.s + 1)
    else if c = 120 then
      match skipHex len u.mem (u.s + 1) with
      | none => none
      | some s =>
        match hexTail len u.mem s with
        | none => none
        | some (v, s') => put len u v s'
    else if isdigit c then octal len u
    else put len u c (u.s + 1)

/-- file.c:125-179: one round of the loop, entered with `s < len`. -/
def round (len : Nat) (u : U) : Option U :=
  match rd len u.mem u.s with
  | none => none
  | some c =>
    if c = 92 ∧ u.s + 1 < len then escape len { u with s := u.s + 1 }
    else put len u c (u.s + 1)

/-- How a call can end. -/
inductive Outcome
  /-- A read or a write outside the given length. -/
  | overrun
  /-- The loop was cut off by the model's fuel. -/
  | cutoff
  /-- Finished; `o - str` is the new length. -/
  | done (u : U)
deriving DecidableEq, Repr

/-- The loop of file.c:124. -/
def uloop (len : Nat) : Nat → U → Outcome
  | 0, u => if u.s < len then .cutoff else .done u
  | n + 1, u =>
    if u.s < len then
      match round len u with
      | none => .overrun
      | some u' => uloop len n u'
    else .done u

/-- yasm_unescape_cstring (file.c:118-181) on buffer `str`, whose first `len` bytes are the string. -/
def unescape (str : List Nat) (len : Nat) : Outcome := uloop len len ⟨str, 0, 0, 0⟩

end Verif.File
