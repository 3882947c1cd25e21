/-
Specification of the table: an association list in order of first insertion.
-/
import Verif.Hamt.Model

namespace Verif.Hamt.Spec

variable {α : Type}

/-- The entry of an equal key, if any. -/
def find (eqv : Key → Key → Bool) (l : List (Key × α)) (s : Key) : Option (Key × α) :=
  l.find? (fun e => eqv e.1 s)

/-- Insert: append a new key; for an existing key, keep it or replace it in place. -/
def insert (eqv : Key → Key → Bool) (l : List (Key × α)) (s : Key) (x : α) (replace : Bool) :
    List (Key × α) :=
  match find eqv l s with
  | none => l ++ [(s, x)]
  | some _ => if replace then l.map (fun e => if eqv e.1 s then (s, x) else e) else l

/-- What the caller sees: (data now stored, replace flag afterwards, data handed to the delete
    function). -/
def result (eqv : Key → Key → Bool) (l : List (Key × α)) (s : Key) (x : α) (replace : Bool) :
    InsResult α :=
  match find eqv l s with
  | none => ⟨x, true, none⟩
  | some e => if replace then ⟨x, true, some e.2⟩ else ⟨e.2, false, some x⟩

def insertAll (eqv : Key → Key → Bool) (l : List (Key × α)) (ops : List (Key × α × Bool)) :
    List (Key × α) :=
  ops.foldl (fun l op => insert eqv l op.1 op.2.1 op.2.2) l

/-- The 5-bit group a table examines at a given depth for a string: groups 0..6 come from the hash,
    the following ones, seven at a time, from the rehash at level 7k-1. -/
def group (cfg : Cfg) (s : Key) (depth : Nat) : Nat :=
  let h := if depth < 7 then cfg.hash s else cfg.rehash s (7 * (depth / 7) - 1)
  (h.toNat / 2 ^ (5 * (depth % 7))) % 32

/-- Two strings the table cannot tell apart at any depth. -/
def Collide (cfg : Cfg) (s t : Key) : Prop := ∀ d, group cfg s d = group cfg t d

end Verif.Hamt.Spec
