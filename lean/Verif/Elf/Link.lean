import Verif.Elf.Spec
/-
Specification for relocations: what a linker that follows the ABI supplements puts into a field, and what the
program asks for.  The formulas are those of the tables of relocation types in the System V ABI supplements for the
Intel386 and x86-64 processors; what the special symbols after WRT ask for is as in the manuals.
-/
namespace Verif.Elf

/-- What a linker has decided: the addresses of the sections of the file (by index) and of the symbols it does not
    define (by name), the address of the global offset table, the offsets in it of the entries for symbols, the addresses of
    their procedure linkage table entries, and the quantities for thread-local storage (by type of relocation). -/
structure Linker where
  addr : Nat → Int
  ext : Name → Int
  got : Int
  entry : Nat → Int
  plt : Nat → Int
  tls : Nat → Nat → Int

/-- The value of a symbol of the file (S). -/
def Linker.value (k : Linker) (y : Symbol) : Int :=
  if y.shndx = 0 ∨ y.shndx = 0xfff2 then k.ext y.name
  else if y.shndx = 0xfff1 then y.value
  else k.addr y.shndx + y.value

/-- What a relocation is about. -/
inductive Quantity where
  /-- the symbol (S) -/
  | symbol
  /-- the symbol's distance from the global offset table (S - GOT) -/
  | gotOff
  /-- the global offset table (GOT) -/
  | got
  /-- the offset of the symbol's entry in the global offset table (G) -/
  | entry
  /-- the address of the symbol's entry in the global offset table (G + GOT) -/
  | entryAddr
  /-- the symbol's procedure linkage table entry (L) -/
  | plt
  /-- the distance of that from the global offset table (L - GOT) -/
  | pltOff
  /-- for thread-local storage -/
  | tls (type : Nat)
  deriving DecidableEq, Repr

/-- The quantity, for the symbol with the value `s` and the index `i` in the file. -/
def Linker.quantity (k : Linker) (s : Int) (i : Nat) : Quantity → Int
  | .symbol => s
  | .gotOff => s - k.got
  | .got => k.got
  | .entry => k.entry i
  | .entryAddr => k.entry i + k.got
  | .plt => k.plt i
  | .pltOff => k.plt i - k.got
  | .tls t => k.tls t i

/-- A type of relocation: what it is about, whether the place P is subtracted, and the bits of the field. -/
structure Formula where
  quantity : Quantity
  pc : Bool
  bits : Nat
  deriving DecidableEq, Repr

/-- The types for the Intel386 (without those that only mark an instruction). -/
def formula386 : Nat → Option Formula
  | 1 => some ⟨.symbol, false, 32⟩        -- R_386_32
  | 2 => some ⟨.symbol, true, 32⟩         -- R_386_PC32
  | 3 => some ⟨.entry, false, 32⟩         -- R_386_GOT32
  | 4 => some ⟨.plt, true, 32⟩            -- R_386_PLT32
  | 9 => some ⟨.gotOff, false, 32⟩        -- R_386_GOTOFF
  | 10 => some ⟨.got, true, 32⟩           -- R_386_GOTPC
  | 15 => some ⟨.tls 15, false, 32⟩       -- R_386_TLS_IE
  | 16 => some ⟨.tls 16, false, 32⟩       -- R_386_TLS_GOTIE
  | 17 => some ⟨.tls 17, false, 32⟩       -- R_386_TLS_LE
  | 18 => some ⟨.tls 18, false, 32⟩       -- R_386_TLS_GD
  | 19 => some ⟨.tls 19, false, 32⟩       -- R_386_TLS_LDM
  | 20 => some ⟨.symbol, false, 16⟩       -- R_386_16
  | 21 => some ⟨.symbol, true, 16⟩        -- R_386_PC16
  | 22 => some ⟨.symbol, false, 8⟩        -- R_386_8
  | 23 => some ⟨.symbol, true, 8⟩         -- R_386_PC8
  | 32 => some ⟨.tls 32, false, 32⟩       -- R_386_TLS_LDO_32
  | 33 => some ⟨.tls 33, false, 32⟩       -- R_386_TLS_IE_32
  | 34 => some ⟨.tls 34, false, 32⟩       -- R_386_TLS_LE_32
  | 39 => some ⟨.tls 39, false, 32⟩       -- R_386_TLS_GOTDESC
  | _ => none

/-- The types for x86-64. -/
def formula64 : Nat → Option Formula
  | 1 => some ⟨.symbol, false, 64⟩        -- R_X86_64_64
  | 2 => some ⟨.symbol, true, 32⟩         -- R_X86_64_PC32
  | 3 => some ⟨.entry, false, 32⟩         -- R_X86_64_GOT32
  | 4 => some ⟨.plt, true, 32⟩            -- R_X86_64_PLT32
  | 9 => some ⟨.entryAddr, true, 32⟩      -- R_X86_64_GOTPCREL
  | 10 => some ⟨.symbol, false, 32⟩       -- R_X86_64_32
  | 11 => some ⟨.symbol, false, 32⟩       -- R_X86_64_32S
  | 12 => some ⟨.symbol, false, 16⟩       -- R_X86_64_16
  | 13 => some ⟨.symbol, true, 16⟩        -- R_X86_64_PC16
  | 14 => some ⟨.symbol, false, 8⟩        -- R_X86_64_8
  | 15 => some ⟨.symbol, true, 8⟩         -- R_X86_64_PC8
  | 19 => some ⟨.tls 19, true, 32⟩        -- R_X86_64_TLSGD
  | 20 => some ⟨.tls 20, true, 32⟩        -- R_X86_64_TLSLD
  | 21 => some ⟨.tls 21, false, 32⟩       -- R_X86_64_DTPOFF32
  | 22 => some ⟨.tls 22, true, 32⟩        -- R_X86_64_GOTTPOFF
  | 23 => some ⟨.tls 23, false, 32⟩       -- R_X86_64_TPOFF32
  | 24 => some ⟨.symbol, true, 64⟩        -- R_X86_64_PC64
  | 25 => some ⟨.gotOff, false, 64⟩       -- R_X86_64_GOTOFF64
  | 26 => some ⟨.got, true, 32⟩           -- R_X86_64_GOTPC32
  | 29 => some ⟨.got, true, 64⟩           -- R_X86_64_GOTPC64
  | 30 => some ⟨.entry, false, 64⟩        -- R_X86_64_GOTPLT64
  | 31 => some ⟨.pltOff, false, 64⟩       -- R_X86_64_PLTOFF64
  | 34 => some ⟨.tls 34, true, 32⟩        -- R_X86_64_GOTPC32_TLSDESC
  | _ => none

/-- The types of relocations of a machine. -/
def Machine.formula (m : Machine) : Nat → Option Formula := if m = .x86 then formula386 else formula64

/-- The number a linker computes for a relocation: for the symbol `y` with index `i`, the addend `a` and the place
    `p`. -/
def Linker.result (k : Linker) (f : Formula) (y : Symbol) (i : Nat) (a p : Int) : Int :=
  k.quantity (k.value y) i f.quantity + a - if f.pc then p else 0

/-- Numbers that are the same in a field of some bits. -/
def SameField (bits : Nat) (a b : Int) : Prop := (2 ^ bits : Int) ∣ a - b

/-! ### What the program asks for -/

/-- The address of a symbol of the object: a label is in its section, others are elsewhere.  (EQUs are replaced by their
    values before relocations are made.) -/
def Obj.address (o : Obj) (k : Linker) (n : Nat) (s : Sym) : Int :=
  match s.kind with
  | .label j off => k.addr (o.sectIndex j) + off
  | _ => k.ext (o.wantName n s)

/-- What a special symbol after WRT asks for, in a value that is relative to the current position or not. -/
def asks (m : Machine) (name : String) (relative : Bool) : Option Quantity :=
  match m, relative, name with
  | _, true, "plt" => some .plt
  | .x86, false, "gotoff" => some .gotOff
  | .amd64, false, "gotoff" => some .gotOff
  | .x86, false, "got" => some .entry
  | .x86, false, "tlsgd" => some (.tls 18)
  | .x86, false, "tlsldm" => some (.tls 19)
  | .x86, false, "gottpoff" => some (.tls 33)
  | .x86, false, "tpoff" => some (.tls 34)
  | .x86, false, "ntpoff" => some (.tls 17)
  | .x86, false, "dtpoff" => some (.tls 32)
  | .x86, false, "gotntpoff" => some (.tls 16)
  | .x86, false, "indntpoff" => some (.tls 15)
  | .x86, false, "tlsdesc" => some (.tls 39)
  | .amd64, false, "pltoff" => some .pltOff
  | .amd64, false, "gotplt" => some .entry
  | .amd64, false, "got" => some .entry
  | .amd64, true, "got" => some .entryAddr
  | .amd64, true, "gotpcrel" => some .entryAddr
  | .amd64, true, "tlsgd" => some (.tls 19)
  | .amd64, true, "tlsld" => some (.tls 20)
  | .amd64, true, "gottpoff" => some (.tls 22)
  | .amd64, false, "tpoff" => some (.tls 23)
  | .amd64, false, "dtpoff" => some (.tls 21)
  | .amd64, true, "tlsdesc" => some (.tls 34)
  | .x32, false, "got" => some .entry
  | .x32, true, "got" => some .entryAddr
  | .x32, true, "gotpcrel" => some .entryAddr
  | .x32, true, "tlsgd" => some (.tls 19)
  | .x32, true, "tlsld" => some (.tls 20)
  | .x32, true, "gottpoff" => some (.tls 22)
  | .x32, false, "tpoff" => some (.tls 23)
  | .x32, false, "dtpoff" => some (.tls 21)
  | .x32, true, "tlsdesc" => some (.tls 34)
  | _, _, _ => none

/-- What a special symbol asks for that stands for a distance from the field itself, in a value that is not relative. -/
def asksFromField (m : Machine) (name : String) : Option Quantity :=
  match m, name with
  | .amd64, "gotpcrel" => some .entryAddr
  | .amd64, "tlsgd" => some (.tls 19)
  | .amd64, "tlsld" => some (.tls 20)
  | .amd64, "gottpoff" => some (.tls 22)
  | .amd64, "tlsdesc" => some (.tls 34)
  | .x32, "gotpcrel" => some .entryAddr
  | .x32, "tlsgd" => some (.tls 19)
  | .x32, "tlsld" => some (.tls 20)
  | .x32, "gottpoff" => some (.tls 22)
  | .x32, "tlsdesc" => some (.tls 34)
  | _, _ => none

/-- What a value is relative to: nothing, the instruction or datum it is in, the field, or the start of the section. -/
inductive Base where
  | none
  | here
  | field
  | start
  deriving DecidableEq, Repr

/-- The address of that, for a value at `l` in section `j` of the object. -/
def Obj.base (o : Obj) (k : Linker) (j : Nat) (l : Loc) : Base → Int
  | .none => 0
  | .here => k.addr (o.sectIndex j) + l.bc
  | .field => k.addr (o.sectIndex j) + l.bc + l.offset
  | .start => k.addr (o.sectIndex j)

/-- Has the symbol this name? -/
def Obj.symNamed (o : Obj) (n : Nat) (name : Name) : Bool :=
  match o.syms[n]? with
  | some s => s.name == name
  | Option.none => false

/-- What a value asks for.  `_GLOBAL_OFFSET_TABLE_` in an instruction stands for the distance of the table from the
    instruction, as in other assemblers: in 32-bit code where the value is not relative already, else where it is.
    `WRT ..gotpc` asks for the distance of the table from the start of the section. -/
def Obj.asksFor (o : Obj) (v : Val) (n : Nat) : Option (Quantity × Base) :=
  match v.wrt with
  | Option.none | some .dotdotsym =>
    if o.symNamed n nGot && (v.size == 32 || (v.size == 64 && o.machine.wide)) then
      if v.curposRel = decide (o.machine = .x86) then Option.none else some (.got, .here)
    else some (.symbol, if v.curposRel then .here else .none)
  | some (.special i) =>
    match o.machine.ssyms[i]? with
    | Option.none => Option.none
    | some x =>
      if x.name = "gotpc" then if v.curposRel then Option.none else some (.got, .start)
      else match asks o.machine x.name v.curposRel with
        | some q => some (q, if v.curposRel then .here else .none)
        | Option.none => if v.curposRel then Option.none else (asksFromField o.machine x.name).map (·, .field)
  | some .other => Option.none

/-- There is a relocation for a reference of this size: of 8, 16 or 32 bits, or of 64 in 64-bit objects; after WRT only a special
    symbol that has one of this size. -/
def Machine.HasRelocation (m : Machine) (size : Nat) : Option Wrt → Prop
  | Option.none | some .dotdotsym => size = 8 ∨ size = 16 ∨ size = 32 ∨ size = 64 ∧ m.wide = true
  | some (.special i) => ∃ x, m.ssyms[i]? = some x ∧ x.size = size
  | some .other => False

/-- The addend of a relocation: its own, else the number in the field. -/
def Rel.addendIn (q : Rel) (field : Int) : Int :=
  match q.addend with
  | some a => a
  | Option.none => field

end Verif.Elf
