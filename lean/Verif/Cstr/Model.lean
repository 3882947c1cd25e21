import Mathlib.Data.List.Basic
/-
Model of libyasm/strcasecmp.c: comparing strings without regard to case, where the C library has no function for it.

A string is the list of its bytes without the final zero; a read behind the final zero is `none`.  `tolower` is that of the C locale.
-/
namespace Verif.Cstr

abbrev Str := List Nat

/-- tolower in the C locale. -/
def lower (c : Nat) : Nat := if 65 ≤ c ∧ c ≤ 90 then c + 32 else c

/-- strcasecmp.c:61-64: the loop of `yasm__strcasecmp`; `s` and `t` are what the pointers point to.  The second pointer is one further than the first after
    the condition, and is moved back to compare. -/
def casecmpFrom : Nat → Str → Str → Option Int
  | 0, _, _ => none
  | fuel + 1, s, t =>
    if lower (s.headD 0) = lower (t.headD 0) then
      if s.headD 0 = 0 then some 0
      else
        match s, t with
        | _ :: s, _ :: t => casecmpFrom fuel s t
        | _, _ => none
    else some ((lower (s.headD 0) : Int) - (lower (t.headD 0) : Int))

/-- strcasecmp.c:45-66 `yasm__strcasecmp`. -/
def casecmp (s t : Str) : Option Int := casecmpFrom (s.length + 1) s t

/-- strcasecmp.c:68-93 `yasm__strncasecmp`. -/
def ncasecmp : Nat → Str → Str → Option Int
  | 0, _, _ => some 0
  | n + 1, s, t =>
    if lower (s.headD 0) ≠ lower (t.headD 0) then some ((lower (s.headD 0) : Int) - (lower (t.headD 0) : Int))
    else if s.headD 0 = 0 then some 0
    else
      match s, t with
      | _ :: s, _ :: t => ncasecmp n s t
      | _, _ => if n = 0 then some 0 else none

end Verif.Cstr
