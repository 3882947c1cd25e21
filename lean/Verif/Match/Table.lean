/-
The whole table: groups by their number, in the order of their first call, and names.
-/
import Verif.Match.Groups0
import Verif.Match.Groups1
import Verif.Match.Groups2
import Verif.Match.Groups3
import Verif.Match.Groups4
import Verif.Match.Groups5
import Verif.Match.Groups6
import Verif.Match.Groups7
import Verif.Match.Names0
import Verif.Match.Names1
import Verif.Match.Names2
import Verif.Match.Names3

namespace Verif.Match

/-- gen_x86_insn.py:371-375 `groups`. -/
def groups : List (List RawForm) := groups0 ++ groups1 ++ groups2 ++ groups3 ++ groups4 ++ groups5 ++ groups6 ++ groups7

/-- gen_x86_insn.py:497-501 `insns`. -/
def names : List RawInsn := names0 ++ names1 ++ names2 ++ names3

end Verif.Match
