/-
Model of the settings of the x86 architecture: x86arch.c and x86cpu.gperf, with the directives CPU, BITS, .code16, .code32 and
.code64, and the variables that are set by the DEFAULT directive and the options.
-/
import Verif.Match.Keyword
import Verif.Bytecode.Fill

namespace Verif.Cpu

open Verif.Intnum
open Verif.Bytecode (NopStyle FillTable x86GetFill)
open Verif.Match (Parser Setting lower)

/-- The enabled processors and features (x86arch.c:69 `BitVector_Create(64, FALSE)`). -/
abbrev Enables := BitVec 64

/-- `BitVector_Bit_On` and `BitVector_Bit_Off` (bitvect.c:2223-2243; the numbers are less than 64). -/
def on (v : Enables) (k : Nat) : Enables := v ||| (1#64 <<< k)
def off (v : Enables) (k : Nat) : Enables := v &&& ~~~(1#64 <<< k)

/-- A bit that is switched on under a condition. -/
def onIf (c : Bool) (k : Nat) (v : Enables) : Enables := if c then on v k else v

/-- x86cpu.gperf:59-143 `x86_cpu_intel`: the features. -/
def intel (n : Nat) : Enables :=
  let v : Enables := on 0 25
  let v := onIf (n ≥ 2) 22 v
  let v := onIf (n ≥ 3) 21 v
  let v := onIf (n ≥ 19) 54 v
  let v := onIf (n ≥ 18) 58 (onIf (n ≥ 18) 57 (onIf (n ≥ 18) 56 v))
  let v := onIf (n ≥ 17) 55 (onIf (n ≥ 17) 53 (onIf (n ≥ 17) 51 (onIf (n ≥ 17) 50
    (onIf (n ≥ 17) 49 (onIf (n ≥ 17) 48 (onIf (n ≥ 17) 47 (onIf (n ≥ 17) 35 v)))))))
  let v := onIf (n ≥ 16) 43 (onIf (n ≥ 16) 42 (onIf (n ≥ 16) 41 v))
  let v := onIf (n ≥ 15) 46 (onIf (n ≥ 15) 45 (onIf (n ≥ 15) 44 (onIf (n ≥ 15) 34 v)))
  let v := onIf (n ≥ 14) 37 (onIf (n ≥ 14) 36 v)
  let v := onIf (n ≥ 13) 33 (onIf (n ≥ 13) 31 v)
  let v := onIf (n ≥ 12) 30 v
  let v := onIf (n ≥ 11) 29 v
  let v := onIf (n ≥ 10) 17 v
  let v := onIf (n ≥ 9) 16 v
  let v := onIf (n ≥ 8) 15 v
  let v := onIf (n ≥ 7) 14 v
  let v := onIf (n ≥ 4) 13 v
  let v := onIf (n ≥ 10) 28 v
  let v := onIf (n ≥ 9) 8 v
  let v := onIf (n ≥ 8) 7 v
  let v := onIf (n ≥ 6) 6 v
  let v := onIf (n ≥ 5) 5 v
  let v := onIf (n ≥ 4) 4 v
  let v := onIf (n ≥ 3) 3 v
  let v := onIf (n ≥ 2) 2 v
  let v := onIf (n ≥ 1) 1 v
  on v 0

/-- x86cpu.gperf:146-166 `x86_cpu_ia64`. -/
def ia64 : Enables := [25, 22, 21, 16, 15, 14, 13, 9, 8, 7, 6, 5, 4, 3, 2, 1, 0].foldl on 0

/-- x86cpu.gperf:175-218 `x86_cpu_amd`: the features. -/
def amd (n : Nat) : Enables :=
  let v : Enables := [25, 22, 21, 18].foldl on 0
  let v := onIf (n ≥ 11) 40 (onIf (n ≥ 11) 39 v)
  let v := onIf (n ≥ 10) 32 v
  let v := onIf (n ≥ 9) 17 v
  let v := onIf (n ≥ 8) 16 v
  let v := onIf (n ≥ 7) 15 v
  let v := onIf (n ≥ 6) 14 v
  let v := on v 13
  let v := onIf (n ≥ 8) 12 v
  let v := onIf (n ≥ 7) 11 v
  let v := onIf (n ≥ 6) 10 v
  [6, 5, 4, 3, 2, 1, 0].foldl on v

/-- The handlers of x86cpu.gperf:58-255 with their data. -/
inductive Act where
  | intel (n : Nat)
  | ia64
  | amd (n : Nat)
  | set (k : Nat)
  | clear (k : Nat)
  | setSse4
  | clearSse4
  | nop (v : NopStyle)
deriving DecidableEq, Repr

/-- x86cpu.gperf:268-452: the words of CPU. -/
def cpuWords : List (String × Act) :=
  [ ("8086", .intel 0), ("186", .intel 1), ("80186", .intel 1), ("i186", .intel 1), ("286", .intel 2), ("80286", .intel 2),
    ("i286", .intel 2), ("386", .intel 3), ("80386", .intel 3), ("i386", .intel 3), ("486", .intel 4), ("80486", .intel 4),
    ("i486", .intel 4), ("586", .intel 5), ("i586", .intel 5), ("pentium", .intel 5), ("p5", .intel 5), ("686", .intel 6),
    ("i686", .intel 6), ("p6", .intel 6), ("ppro", .intel 6), ("pentiumpro", .intel 6), ("p2", .intel 7), ("pentium2", .intel 7),
    ("pentium-2", .intel 7), ("pentiumii", .intel 7), ("pentium-ii", .intel 7), ("p3", .intel 8), ("pentium3", .intel 8), ("pentium-3", .intel 8),
    ("pentiumiii", .intel 8), ("pentium-iii", .intel 8), ("katmai", .intel 8), ("p4", .intel 9), ("pentium4", .intel 9), ("pentium-4", .intel 9),
    ("pentiumiv", .intel 9), ("pentium-iv", .intel 9), ("williamette", .intel 9), ("ia64", .ia64), ("ia-64", .ia64), ("itanium", .ia64),
    ("k6", .amd 6), ("k7", .amd 7), ("athlon", .amd 7), ("k8", .amd 8), ("hammer", .amd 8), ("clawhammer", .amd 8),
    ("opteron", .amd 8), ("athlon64", .amd 8), ("athlon-64", .amd 8), ("venice", .amd 9), ("k10", .amd 10), ("phenom", .amd 10),
    ("family10h", .amd 10), ("bulldozer", .amd 11), ("prescott", .intel 10), ("conroe", .intel 11), ("core2", .intel 11), ("penryn", .intel 12),
    ("nehalem", .intel 13), ("corei7", .intel 13), ("westmere", .intel 14), ("sandybridge", .intel 15), ("ivybridge", .intel 16), ("haswell", .intel 17),
    ("broadwell", .intel 18), ("skylake", .intel 19), ("fpu", .set 13), ("nofpu", .clear 13), ("mmx", .set 14), ("nommx", .clear 14),
    ("sse", .set 15), ("nosse", .clear 15), ("sse2", .set 16), ("nosse2", .clear 16), ("sse3", .set 17), ("nosse3", .clear 17),
    ("3dnow", .set 18), ("no3dnow", .clear 18), ("cyrix", .set 19), ("nocyrix", .clear 19), ("amd", .set 20), ("noamd", .clear 20),
    ("smm", .set 21), ("nosmm", .clear 21), ("prot", .set 22), ("noprot", .clear 22), ("protected", .set 22), ("noprotected", .clear 22),
    ("undoc", .set 23), ("noundoc", .clear 23), ("undocumented", .set 23), ("noundocumented", .clear 23), ("obs", .set 24), ("noobs", .clear 24),
    ("obsolete", .set 24), ("noobsolete", .clear 24), ("priv", .set 25), ("nopriv", .clear 25), ("privileged", .set 25), ("noprivileged", .clear 25),
    ("svm", .set 26), ("nosvm", .clear 26), ("padlock", .set 27), ("nopadlock", .clear 27), ("em64t", .set 28), ("noem64t", .clear 28),
    ("ssse3", .set 29), ("nossse3", .clear 29), ("sse4.1", .set 30), ("nosse4.1", .clear 30), ("sse41", .set 30), ("nosse41", .clear 30),
    ("sse4.2", .set 31), ("nosse4.2", .clear 31), ("sse42", .set 31), ("nosse42", .clear 31), ("sse4a", .set 32), ("nosse4a", .clear 32),
    ("sse4", .setSse4), ("nosse4", .clearSse4), ("xsave", .set 33), ("noxsave", .clear 33), ("avx", .set 34), ("noavx", .clear 34),
    ("fma", .set 35), ("nofma", .clear 35), ("aes", .set 36), ("noaes", .clear 36), ("clmul", .set 37), ("noclmul", .clear 37),
    ("pclmulqdq", .set 37), ("nopclmulqdq", .clear 37), ("movbe", .set 38), ("nomovbe", .clear 38), ("xop", .set 39), ("noxop", .clear 39),
    ("fma4", .set 40), ("nofma4", .clear 40), ("f16c", .set 41), ("nof16c", .clear 41), ("fsgsbase", .set 42), ("nofsgsbase", .clear 42),
    ("rdrand", .set 43), ("nordrand", .clear 43), ("xsaveopt", .set 44), ("noxsaveopt", .clear 44), ("eptvpid", .set 45), ("noeptvpid", .clear 45),
    ("smx", .set 46), ("nosmx", .clear 46), ("avx2", .set 47), ("noavx2", .clear 47), ("tsx", .set 53), ("notsx", .clear 53),
    ("bmi1", .set 48), ("nobmi1", .clear 48), ("bmi2", .set 49), ("nobmi2", .clear 49), ("invpcid", .set 50), ("noinvpcid", .clear 50),
    ("lzcnt", .set 51), ("nolzcnt", .clear 51), ("tbm", .set 52), ("notbm", .clear 52), ("sha", .set 54), ("nosha", .clear 54),
    ("smap", .set 55), ("nosmap", .clear 55), ("rdseed", .set 56), ("nordseed", .clear 56), ("adx", .set 57), ("noadx", .clear 57),
    ("prfchw", .set 58), ("noprfchw", .clear 58), ("basicnop", .nop .basic), ("intelnop", .nop .intel), ("amdnop", .nop .amd) ]

/-- What a handler does to the features and to the kind of padding. -/
def Act.run (a : Act) (s : Enables × NopStyle) : Enables × NopStyle :=
  match a with
  | .intel n => (Cpu.intel n, if n ≥ 6 then .intel else .basic)
  | .ia64 => (Cpu.ia64, s.2)
  | .amd n => (Cpu.amd n, if n ≥ 6 then .amd else .basic)
  | .set k => (on s.1 k, s.2)
  | .clear k => (off s.1 k, s.2)
  | .setSse4 => (on (on s.1 30) 31, s.2)
  | .clearSse4 => (off (off s.1 30) 31, s.2)
  | .nop v => (s.1, v)

/-- x86arch.h:101-122 `yasm_arch_x86`, and the diagnostics: the words that were reported as unknown, and the number of other
    warnings and errors. -/
structure State where
  enables : List Enables
  active : Nat
  amd64 : Bool
  parser : Parser
  modeBits : Nat
  addressSize : Nat
  forceStrict : Nat
  defaultRel : Nat
  gasIntel : Nat
  nop : NopStyle
  unknown : List (List Char)
  warnings : Nat
  errors : Nat

/-- x86arch.c:38-93 `x86_create`, for a machine and a parser that exist. -/
def create (amd64 : Bool) (addressSize : Nat) (parser : Parser) : State :=
  { enables := [BitVec.allOnes 64], active := 0, amd64 := amd64, parser := parser, modeBits := 0, addressSize := addressSize,
    forceStrict := 0, defaultRel := 0, gasIntel := 0, nop := .basic, unknown := [], warnings := 0, errors := 0 }

/-- The vector `cpu_enables[active_cpu]`. -/
def State.current (s : State) : Enables := s.enables.getD s.active 0

/-- x86cpu.gperf:483-502: look for the vector in the table, or add it. -/
def State.activate (s : State) (v : Enables) : State :=
  match s.enables.findIdx? (· == v) with
  | some i => { s with active := i }
  | none => { s with active := s.enables.length, enables := s.enables ++ [v] }

/-- x86cpu.gperf:455-502 `yasm_x86__parse_cpu`.  (The perfect hash is taken to find the entry with the name, if there is one.) -/
def parseCpu (s : State) (word : List Char) : State :=
  if word.length > 15 then s
  else match cpuWords.find? fun e => e.1.toList = word.map lower with
    | none => { s with unknown := s.unknown ++ [word] }
    | some e =>
      let r := e.2.run (s.current, s.nop)
      State.activate { s with nop := r.2 } r.1

/-- `sprintf("%lu")`; 20 digits are enough for 64 bits. -/
def digits : Nat → Nat → List Char
  | 0, _ => []
  | fuel + 1, n => if n < 10 then [Char.ofNat (48 + n)] else digits fuel (n / 10) ++ [Char.ofNat (48 + n % 10)]

def decimal (n : Nat) : List Char := digits 20 n

/-- A parameter of a directive (valparam.h): whether there is a name before it, and what it is.  An expression is given by the value
    `yasm_expr_get_intnum` has for it, if any, and so is a symbol if it is used as an expression. -/
inductive Value where
  | word (w : List Char) (asExpr : Option Intnum)
  | expr (v : Option Intnum)

structure Param where
  named : Bool
  value : Value

/-- x86arch.c:157-175: one parameter of CPU; none if `strcpu` overflows. -/
def cpuParam (s : State) (p : Param) : Option State :=
  match p.value with
  | .word w _ => some (parseCpu s w)
  | .expr none => some { s with errors := s.errors + 1 }
  | .expr (some v) => if (decimal (getUint v).toNat).length + 1 > 16 then none else some (parseCpu s (decimal (getUint v).toNat))

/-- x86arch.c:151-176 `x86_dir_cpu`. -/
def dirCpu : State → List Param → Option State
  | s, [] => some s
  | s, p :: ps => match cpuParam s p with
    | none => none
    | some s => dirCpu s ps

/-- The value of a parameter as an expression (valparam.c:101-115 `yasm_vp_expr`; strings have none). -/
def Param.number (p : Param) : Option Intnum :=
  match p.value with
  | .word _ v => v
  | .expr v => v

/-- x86arch.c:178-199 `x86_dir_bits`. -/
def dirBits (s : State) (ps : List Param) : State :=
  match ps with
  | [] => { s with errors := s.errors + 1 }
  | p :: _ =>
    if p.named then { s with errors := s.errors + 1 }
    else match p.number with
      | none => { s with errors := s.errors + 1 }
      | some v =>
        if getInt v = 16#64 ∨ getInt v = 32#64 ∨ getInt v = 64#64 then { s with modeBits := (getInt v).toNat % 256 }
        else { s with errors := s.errors + 1 }

/-- The variables of x86arch.c:127-147. -/
inductive Var where
  | modeBits | forceStrict | defaultRel | gasIntel

/-- x86arch.c:127-147 `x86_set_var`, for a variable it knows. -/
def setVar (s : State) (v : Var) (val : Nat) : State :=
  match v with
  | .modeBits => { s with modeBits := val % 2 ^ 32 }
  | .forceStrict => { s with forceStrict := val % 2 ^ 32 }
  | .defaultRel => if s.modeBits ≠ 64 then { s with warnings := s.warnings + 1 } else { s with defaultRel := val % 2 ^ 32 }
  | .gasIntel => { s with gasIntel := val % 2 ^ 32 }

/-- What changes the settings: the directives, and `x86_set_var`. -/
inductive Step where
  | cpu (ps : List Param)
  | bits (ps : List Param)
  /-- x86arch.c:201-223: .code16, .code32 and .code64. -/
  | code16 | code32 | code64
  | var (v : Var) (val : Nat)

def step (s : State) : Step → Option State
  | .cpu ps => dirCpu s ps
  | .bits ps => some (dirBits s ps)
  | .code16 => some { s with modeBits := 16 }
  | .code32 => some { s with modeBits := 32 }
  | .code64 => some { s with modeBits := 64 }
  | .var v val => some (setVar s v val)

def run : State → List Step → Option State
  | s, [] => some s
  | s, d :: ds => match step s d with
    | none => none
    | some s => run s ds

/-- x86arch.h:99 `PARSER`. -/
def State.syntax (s : State) : Parser := if s.parser = .gas ∧ s.gasIntel ≠ 0 then .nasm else s.parser

/-- What an instruction takes from the settings (x86id.c:1828, 1869-1886).  It keeps a pointer to its vector; `settings_kept` is about
    what this points to later. -/
def State.setting (s : State) : Setting :=
  { mode := s.modeBits, cpu := fun k => s.current.getLsbD k, parser := s.syntax, forceStrict := s.forceStrict != 0,
    defaultRel := s.defaultRel != 0 }

/-- x86arch.c:118-124 `x86_get_address_size`. -/
def State.addrSize (s : State) : Nat := if s.modeBits ≠ 0 then s.modeBits else s.addressSize

/-- x86arch.c:433-457: the padding for the settings. -/
def State.fill (s : State) : Option FillTable := x86GetFill s.modeBits s.nop

end Verif.Cpu
