/-
Model of libyasm/assocdat.c: data attached to symbols and sections under a callback identity.

Callback identities and data pointers are natural numbers; data pointer 0 is NULL.  The vector is the
list of its slots in use together with the number of slots allocated; a write past the allocation is
the outcome `none`.  What the C code does through `callback->destroy` is returned as a list of calls
(callback, argument), in the order made.  Allocation failure is not modelled.  `print` (132-150) only
calls back and is left out.
-/
namespace Verif.Assoc

abbrev Cb := Nat
abbrev Ptr := Nat

/-- assocdat.c:33-42: `vector` (the first `size` slots) and `alloc`. -/
structure Assoc where
  slots : List (Cb × Ptr)
  alloc : Nat
deriving Repr, DecidableEq

/-- assocdat.c:45-56 `yasm__assoc_data_create`. -/
def create : Assoc := ⟨[], 2⟩

/-- assocdat.c:58-72 `yasm__assoc_data_get`; the store itself may be NULL (`none`). -/
def get (a : Option Assoc) (cb : Cb) : Ptr :=
  match a with
  | none => 0
  | some a =>
    match a.slots.find? (fun s => s.1 == cb) with
    | some s => s.2
    | none => 0

/-- assocdat.c:90-95: position of the slot of a callback. -/
def slotOf (l : List (Cb × Ptr)) (cb : Cb) : Option Nat := l.findIdx? (fun s => s.1 == cb)

/-- assocdat.c:113-118: destroy data already in the slot unless it is what is being stored, then
    store. Returns the new slots and the destroy calls made. -/
def store (l : List (Cb × Ptr)) (i : Nat) (data : Ptr) : Option (List (Cb × Ptr) × List (Cb × Ptr)) :=
  match l[i]? with
  | none => none
  | some s =>
    some (l.set i (s.1, data), if s.2 ≠ 0 ∧ s.2 ≠ data then [(s.1, s.2)] else [])

/-- assocdat.c:74-121 `yasm__assoc_data_add`; `none` is a write outside the allocated vector. -/
def add (a : Option Assoc) (cb : Cb) (data : Ptr) : Option (Assoc × List (Cb × Ptr)) :=
  let a := a.getD create
  match slotOf a.slots cb with
  | some i => (store a.slots i data).map (fun r => (⟨r.1, a.alloc⟩, r.2))
  | none =>
    let size := a.slots.length + 1
    let alloc := if size > a.alloc then a.alloc * 2 else a.alloc
    if size - 1 < alloc then
      (store (a.slots ++ [(cb, 0)]) (size - 1) data).map (fun r => (⟨r.1, alloc⟩, r.2))
    else none

/-- assocdat.c:123-135 `yasm__assoc_data_destroy`: the destroy calls made. -/
def destroy (a : Option Assoc) : List (Cb × Ptr) :=
  match a with
  | none => []
  | some a => a.slots.map (fun s => (s.1, s.2))

/-- Any history of additions starting from no store at all; collects the destroy calls. -/
def run (a : Option Assoc) : List (Cb × Ptr) → Option (Option Assoc × List (Cb × Ptr))
  | [] => some (a, [])
  | (cb, d) :: ops =>
    match add a cb d with
    | none => none
    | some (a', calls) =>
      match run (some a') ops with
      | none => none
      | some (a'', calls') => some (a'', calls ++ calls')

end Verif.Assoc
