/-
The table of modules/arch/x86/gen_x86_insn.py: the calls of `add_group`, with its loops written out.  Made by reading the syntax tree
of the script; nothing but literals and the arithmetic on them is evaluated.
-/
import Verif.Match.Gen

namespace Verif.Match

/-- gen_x86_insn.py, `add_group("empty", …)` at lines 652. -/
def empty_insn : List RawForm :=
  [ { opcode := [] } ]

/-- gen_x86_insn.py, `add_group("not64", …)` at lines 657. -/
def not64_insn : List RawForm :=
  [ { opcode := [], not64 := true } ]

/-- gen_x86_insn.py, `add_group("onebyte", …)` at lines 662. -/
def onebyte_insn : List RawForm :=
  [ { opcode := [0x00], modifiers := [.op0Add, .opSizeR, .dOpS64R] } ]

/-- gen_x86_insn.py, `add_group("onebyte_prefix", …)` at lines 670. -/
def onebyte_prefix_insn : List RawForm :=
  [ { opcode := [0x00], modifiers := [.preAdd, .op0Add] } ]

/-- gen_x86_insn.py, `add_group("twobyte", …)` at lines 679. -/
def twobyte_insn : List RawForm :=
  [ { opcode := [0x00, 0x00], modifiers := [.op0Add, .op1Add], suffixes := some [.l, .q], genSuffix := false } ]

/-- gen_x86_insn.py, `add_group("threebyte", …)` at lines 689. -/
def threebyte_insn : List RawForm :=
  [ { opcode := [0x00, 0x00, 0x00], modifiers := [.op0Add, .op1Add, .op2Add] } ]

/-- gen_x86_insn.py, `add_group("onebytemem", …)` at lines 697. -/
def onebytemem_insn : List RawForm :=
  [ { opcode := [0x00], operands := [⟨.mem, .any, false, .ea, false, .none, .none⟩], modifiers := [.spAdd, .op0Add],
      suffixes := some [.l, .q, .s], genSuffix := false } ]

/-- gen_x86_insn.py, `add_group("twobytemem", …)` at lines 708. -/
def twobytemem_insn : List RawForm :=
  [ { opcode := [0x00, 0x00], operands := [⟨.mem, .any, true, .ea, false, .none, .none⟩], modifiers := [.spAdd, .op0Add,
      .op1Add], suffixes := some [.w, .l, .q, .s], genSuffix := false } ]

/-- gen_x86_insn.py, `add_group("mov", …)` at lines
    722, 731, 741, 749, 758, 769, 778, 789, 797, 803, 810, 816, 824, 830, 837, 843, 853, 860, 868, 875, 882, 888, 895,
  902, 910, 917, 923, 930, 938, 945, 953, 960, 970, 978, 986, 995, 1003. -/
def mov_insn : List RawForm :=
  [ { opcode := [0xA0], operands := [⟨.areg, .s8, false, .none, false, .none, .none⟩, ⟨.memOffs, .s8, true, .ea, false, .none,
      .none⟩], opersize := 8, suffixes := some [.b], not64 := true },
    { opcode := [0xA1], operands := [⟨.areg, .s16, false, .none, false, .none, .none⟩, ⟨.memOffs, .s16, true, .ea, false, .none,
      .none⟩], opersize := 16, suffixes := some [.w], not64 := true },
    { opcode := [0xA1], operands := [⟨.areg, .s32, false, .none, false, .none, .none⟩, ⟨.memOffs, .s32, true, .ea, false, .none,
      .none⟩], opersize := 32, suffixes := some [.l], not64 := true },
    { opcode := [0xA2], operands := [⟨.memOffs, .s8, true, .ea, false, .none, .none⟩, ⟨.areg, .s8, false, .none, false, .none,
      .none⟩], opersize := 8, suffixes := some [.b], not64 := true },
    { opcode := [0xA3], operands := [⟨.memOffs, .s16, true, .ea, false, .none, .none⟩, ⟨.areg, .s16, false, .none, false, .none,
      .none⟩], opersize := 16, suffixes := some [.w], not64 := true },
    { opcode := [0xA3], operands := [⟨.memOffs, .s32, true, .ea, false, .none, .none⟩, ⟨.areg, .s32, false, .none, false, .none,
      .none⟩], opersize := 32, suffixes := some [.l], not64 := true },
    { opcode := [0xA0], operands := [⟨.areg, .s8, false, .none, false, .none, .none⟩, ⟨.memOffs, .s8, true, .ea, true, .none,
      .none⟩], opersize := 8, only64 := true },
    { opcode := [0xA1], operands := [⟨.areg, .s16, false, .none, false, .none, .none⟩, ⟨.memOffs, .s16, true, .ea, true, .none,
      .none⟩], opersize := 16, only64 := true },
    { opcode := [0xA1], operands := [⟨.areg, .s32, false, .none, false, .none, .none⟩, ⟨.memOffs, .s32, true, .ea, true, .none,
      .none⟩], opersize := 32, only64 := true },
    { opcode := [0xA1], operands := [⟨.areg, .s64, false, .none, false, .none, .none⟩, ⟨.memOffs, .s64, true, .ea, true, .none,
      .none⟩], opersize := 64, only64 := true },
    { opcode := [0xA2], operands := [⟨.memOffs, .s8, true, .ea, true, .none, .none⟩, ⟨.areg, .s8, false, .none, false, .none,
      .none⟩], opersize := 8, only64 := true },
    { opcode := [0xA3], operands := [⟨.memOffs, .s16, true, .ea, true, .none, .none⟩, ⟨.areg, .s16, false, .none, false, .none,
      .none⟩], opersize := 16, only64 := true },
    { opcode := [0xA3], operands := [⟨.memOffs, .s32, true, .ea, true, .none, .none⟩, ⟨.areg, .s32, false, .none, false, .none,
      .none⟩], opersize := 32, only64 := true },
    { opcode := [0xA3], operands := [⟨.memOffs, .s64, true, .ea, true, .none, .none⟩, ⟨.areg, .s64, false, .none, false, .none,
      .none⟩], opersize := 64, only64 := true },
    { opcode := [0x88], opcode2 := [0xA2], operands := [⟨.rm, .s8, true, .ea, false, .none, .shortMov⟩, ⟨.areg, .s8, false,
      .spare, false, .none, .none⟩], opersize := 8, suffixes := some [.b] },
    { opcode := [0x89], opcode2 := [0xA3], operands := [⟨.rm, .s16, true, .ea, false, .none, .shortMov⟩, ⟨.areg, .s16, false,
      .spare, false, .none, .none⟩], opersize := 16, suffixes := some [.w] },
    { opcode := [0x89], opcode2 := [0xA3], operands := [⟨.rm, .s32, true, .ea, false, .none, .shortMov⟩, ⟨.areg, .s32, false,
      .spare, false, .none, .none⟩], opersize := 32, suffixes := some [.l] },
    { opcode := [0x89], opcode2 := [0xA3], operands := [⟨.rm, .s64, true, .ea, false, .none, .shortMov⟩, ⟨.areg, .s64, false,
      .spare, false, .none, .none⟩], opersize := 64, suffixes := some [.q] },
    { opcode := [0x88], operands := [⟨.rm, .s8, true, .ea, false, .none, .none⟩, ⟨.reg, .s8, false, .spare, false, .none,
      .none⟩], opersize := 8, suffixes := some [.b] },
    { opcode := [0x89], operands := [⟨.rm, .s16, true, .ea, false, .none, .none⟩, ⟨.reg, .s16, false, .spare, false, .none,
      .none⟩], opersize := 16, suffixes := some [.w] },
    { opcode := [0x89], operands := [⟨.rm, .s32, true, .ea, false, .none, .none⟩, ⟨.reg, .s32, false, .spare, false, .none,
      .none⟩], opersize := 32, suffixes := some [.l] },
    { opcode := [0x89], operands := [⟨.rm, .s64, true, .ea, false, .none, .none⟩, ⟨.reg, .s64, false, .spare, false, .none,
      .none⟩], opersize := 64, suffixes := some [.q] },
    { opcode := [0x8A], opcode2 := [0xA0], operands := [⟨.areg, .s8, false, .spare, false, .none, .none⟩, ⟨.rm, .s8, true, .ea,
      false, .none, .shortMov⟩], opersize := 8, suffixes := some [.b] },
    { opcode := [0x8B], opcode2 := [0xA1], operands := [⟨.areg, .s16, false, .spare, false, .none, .none⟩, ⟨.rm, .s16, true,
      .ea, false, .none, .shortMov⟩], opersize := 16, suffixes := some [.w] },
    { opcode := [0x8B], opcode2 := [0xA1], operands := [⟨.areg, .s32, false, .spare, false, .none, .none⟩, ⟨.rm, .s32, true,
      .ea, false, .none, .shortMov⟩], opersize := 32, suffixes := some [.l] },
    { opcode := [0x8B], opcode2 := [0xA1], operands := [⟨.areg, .s64, false, .spare, false, .none, .none⟩, ⟨.rm, .s64, true,
      .ea, false, .none, .shortMov⟩], opersize := 64, suffixes := some [.q] },
    { opcode := [0x8A], operands := [⟨.reg, .s8, false, .spare, false, .none, .none⟩, ⟨.rm, .s8, true, .ea, false, .none,
      .none⟩], opersize := 8, suffixes := some [.b] },
    { opcode := [0x8B], operands := [⟨.reg, .s16, false, .spare, false, .none, .none⟩, ⟨.rm, .s16, true, .ea, false, .none,
      .none⟩], opersize := 16, suffixes := some [.w] },
    { opcode := [0x8B], operands := [⟨.reg, .s32, false, .spare, false, .none, .none⟩, ⟨.rm, .s32, true, .ea, false, .none,
      .none⟩], opersize := 32, suffixes := some [.l] },
    { opcode := [0x8B], operands := [⟨.reg, .s64, false, .spare, false, .none, .none⟩, ⟨.rm, .s64, true, .ea, false, .none,
      .none⟩], opersize := 64, suffixes := some [.q] },
    { opcode := [0x8C], operands := [⟨.mem, .s16, true, .ea, false, .none, .none⟩, ⟨.segReg, .s16, true, .spare, false, .none,
      .none⟩], suffixes := some [.w] },
    { opcode := [0x8C], operands := [⟨.reg, .s16, false, .ea, false, .none, .none⟩, ⟨.segReg, .s16, true, .spare, false, .none,
      .none⟩], opersize := 16, suffixes := some [.w] },
    { opcode := [0x8C], operands := [⟨.reg, .s32, false, .ea, false, .none, .none⟩, ⟨.segReg, .s16, true, .spare, false, .none,
      .none⟩], opersize := 32, suffixes := some [.l] },
    { opcode := [0x8C], operands := [⟨.reg, .s64, false, .ea, false, .none, .none⟩, ⟨.segReg, .s16, true, .spare, false, .none,
      .none⟩], opersize := 64, suffixes := some [.q] },
    { opcode := [0x8E], operands := [⟨.segReg, .s16, true, .spare, false, .none, .none⟩, ⟨.rm, .s16, true, .ea, false, .none,
      .none⟩], suffixes := some [.w] },
    { opcode := [0x8E], operands := [⟨.segReg, .s16, true, .spare, false, .none, .none⟩, ⟨.reg, .s32, false, .ea, false, .none,
      .none⟩], suffixes := some [.l] },
    { opcode := [0x8E], operands := [⟨.segReg, .s16, true, .spare, false, .none, .none⟩, ⟨.reg, .s64, false, .ea, false, .none,
      .none⟩], suffixes := some [.q] },
    { opcode := [0xB0], operands := [⟨.reg, .s8, false, .op0Add, false, .none, .none⟩, ⟨.imm, .s8, true, .imm, false, .none,
      .none⟩], suffixes := some [.b] },
    { opcode := [0xB8], operands := [⟨.reg, .s16, false, .op0Add, false, .none, .none⟩, ⟨.imm, .s16, true, .imm, false, .none,
      .none⟩], opersize := 16, suffixes := some [.w] },
    { opcode := [0xB8], operands := [⟨.reg, .s32, false, .op0Add, false, .none, .none⟩, ⟨.imm, .s32, true, .imm, false, .none,
      .none⟩], opersize := 32, suffixes := some [.l] },
    { opcode := [0xB8], operands := [⟨.reg, .s64, false, .op0Add, false, .none, .none⟩, ⟨.imm, .s64, false, .imm, false, .none,
      .none⟩], opersize := 64, gas := false },
    { opcode := [0xB8], opcode2 := [0xC7], operands := [⟨.reg, .s64, false, .op0Add, false, .none, .none⟩, ⟨.imm, .s64, true,
      .imm, false, .none, .simm32Avail⟩], opersize := 64, suffixes := some [.q] },
    { opcode := [0xC6], operands := [⟨.rm, .s8, true, .ea, false, .none, .none⟩, ⟨.imm, .s8, false, .imm, false, .none, .none⟩],
      opersize := 8, suffixes := some [.b] },
    { opcode := [0xC7], operands := [⟨.rm, .s16, true, .ea, false, .none, .none⟩, ⟨.imm, .s16, false, .imm, false, .none,
      .none⟩], opersize := 16, suffixes := some [.w] },
    { opcode := [0xC7], operands := [⟨.rm, .s32, true, .ea, false, .none, .none⟩, ⟨.imm, .s32, false, .imm, false, .none,
      .none⟩], opersize := 32, suffixes := some [.l] },
    { opcode := [0xC7], operands := [⟨.rm, .s64, true, .ea, false, .none, .none⟩, ⟨.imm, .s32, false, .imm, false, .none,
      .none⟩], opersize := 64, suffixes := some [.q] },
    { opcode := [0xC6], operands := [⟨.rm, .s8, false, .ea, false, .none, .none⟩, ⟨.imm, .s8, true, .imm, false, .none, .none⟩],
      opersize := 8, suffixes := some [.b] },
    { opcode := [0xC7], operands := [⟨.rm, .s16, false, .ea, false, .none, .none⟩, ⟨.imm, .s16, true, .imm, false, .none,
      .none⟩], opersize := 16, suffixes := some [.w] },
    { opcode := [0xC7], operands := [⟨.rm, .s32, false, .ea, false, .none, .none⟩, ⟨.imm, .s32, true, .imm, false, .none,
      .none⟩], opersize := 32, suffixes := some [.l] },
    { opcode := [0xC7], operands := [⟨.rm, .s64, false, .ea, false, .none, .none⟩, ⟨.imm, .s32, true, .imm, false, .none,
      .none⟩], opersize := 64, suffixes := some [.q] },
    { opcode := [0x0F, 0x22], operands := [⟨.cr4, .s32, false, .spare, false, .none, .none⟩, ⟨.reg, .s32, false, .ea, false,
      .none, .none⟩], cpu := [25], suffixes := some [.l], not64 := true },
    { opcode := [0x0F, 0x22], operands := [⟨.crReg, .s32, false, .spare, false, .none, .none⟩, ⟨.reg, .s32, false, .ea, false,
      .none, .none⟩], cpu := [25], suffixes := some [.l], not64 := true },
    { opcode := [0x0F, 0x22], operands := [⟨.crReg, .s32, false, .spare, false, .none, .none⟩, ⟨.reg, .s64, false, .ea, false,
      .none, .none⟩], cpu := [25], suffixes := some [.q] },
    { opcode := [0x0F, 0x20], operands := [⟨.reg, .s32, false, .ea, false, .none, .none⟩, ⟨.cr4, .s32, false, .spare, false,
      .none, .none⟩], cpu := [25], suffixes := some [.l], not64 := true },
    { opcode := [0x0F, 0x20], operands := [⟨.reg, .s32, false, .ea, false, .none, .none⟩, ⟨.crReg, .s32, false, .spare, false,
      .none, .none⟩], cpu := [25], suffixes := some [.l], not64 := true },
    { opcode := [0x0F, 0x20], operands := [⟨.reg, .s64, false, .ea, false, .none, .none⟩, ⟨.crReg, .s32, false, .spare, false,
      .none, .none⟩], cpu := [25], suffixes := some [.q] },
    { opcode := [0x0F, 0x23], operands := [⟨.drReg, .s32, false, .spare, false, .none, .none⟩, ⟨.reg, .s32, false, .ea, false,
      .none, .none⟩], cpu := [25], suffixes := some [.l], not64 := true },
    { opcode := [0x0F, 0x23], operands := [⟨.drReg, .s32, false, .spare, false, .none, .none⟩, ⟨.reg, .s64, false, .ea, false,
      .none, .none⟩], cpu := [25], suffixes := some [.q] },
    { opcode := [0x0F, 0x21], operands := [⟨.reg, .s32, false, .ea, false, .none, .none⟩, ⟨.drReg, .s32, false, .spare, false,
      .none, .none⟩], cpu := [25], suffixes := some [.l], not64 := true },
    { opcode := [0x0F, 0x21], operands := [⟨.reg, .s64, false, .ea, false, .none, .none⟩, ⟨.drReg, .s32, false, .spare, false,
      .none, .none⟩], cpu := [25], suffixes := some [.q] },
    { opcode := [0x0F, 0x6F], operands := [⟨.simdReg, .s64, false, .spare, false, .none, .none⟩, ⟨.simdRM, .s64, true, .ea,
      false, .none, .none⟩], cpu := [14], suffixes := some [.q], nasm := false },
    { opcode := [0x0F, 0x6E], operands := [⟨.simdReg, .s64, false, .spare, false, .none, .none⟩, ⟨.rm, .s64, true, .ea, false,
      .none, .none⟩], cpu := [14], opersize := 64, suffixes := some [.q], nasm := false },
    { opcode := [0x0F, 0x7F], operands := [⟨.simdRM, .s64, true, .ea, false, .none, .none⟩, ⟨.simdReg, .s64, false, .spare,
      false, .none, .none⟩], cpu := [14], suffixes := some [.q], nasm := false },
    { opcode := [0x0F, 0x7E], operands := [⟨.rm, .s64, true, .ea, false, .none, .none⟩, ⟨.simdReg, .s64, false, .spare, false,
      .none, .none⟩], cpu := [14], opersize := 64, suffixes := some [.q], nasm := false },
    { opcode := [0x0F, 0x7E], operands := [⟨.simdReg, .s128, false, .spare, false, .none, .none⟩, ⟨.simdReg, .s128, false, .ea,
      false, .none, .none⟩], cpu := [16], pfx := 0xF3, suffixes := some [.q], nasm := false },
    { opcode := [0x0F, 0x7E], operands := [⟨.simdReg, .s128, false, .spare, false, .none, .none⟩, ⟨.simdRM, .s64, true, .ea,
      false, .none, .none⟩], cpu := [16], pfx := 0xF3, suffixes := some [.q], nasm := false },
    { opcode := [0x0F, 0x6E], operands := [⟨.simdReg, .s128, false, .spare, false, .none, .none⟩, ⟨.rm, .s64, true, .ea, false,
      .none, .none⟩], cpu := [16], opersize := 64, pfx := 0x66, suffixes := some [.q], nasm := false },
    { opcode := [0x0F, 0xD6], operands := [⟨.simdRM, .s64, true, .ea, false, .none, .none⟩, ⟨.simdReg, .s128, false, .spare,
      false, .none, .none⟩], cpu := [16], pfx := 0x66, suffixes := some [.q], nasm := false },
    { opcode := [0x0F, 0x7E], operands := [⟨.rm, .s64, true, .ea, false, .none, .none⟩, ⟨.simdReg, .s128, false, .spare, false,
      .none, .none⟩], cpu := [16], opersize := 64, pfx := 0x66, suffixes := some [.q], nasm := false } ]

/-- gen_x86_insn.py, `add_group("movabs", …)` at lines 1019, 1026, 1035, 1042, 1052. -/
def movabs_insn : List RawForm :=
  [ { opcode := [0xA0], operands := [⟨.areg, .s8, false, .none, false, .none, .none⟩, ⟨.memOffs, .s8, true, .ea, true, .none,
      .none⟩], suffixes := some [.b], only64 := true },
    { opcode := [0xA1], operands := [⟨.areg, .s16, false, .none, false, .none, .none⟩, ⟨.memOffs, .s16, true, .ea, true, .none,
      .none⟩], opersize := 16, suffixes := some [.w], only64 := true },
    { opcode := [0xA1], operands := [⟨.areg, .s32, false, .none, false, .none, .none⟩, ⟨.memOffs, .s32, true, .ea, true, .none,
      .none⟩], opersize := 32, suffixes := some [.l], only64 := true },
    { opcode := [0xA1], operands := [⟨.areg, .s64, false, .none, false, .none, .none⟩, ⟨.memOffs, .s64, true, .ea, true, .none,
      .none⟩], opersize := 64, suffixes := some [.q], only64 := true },
    { opcode := [0xA2], operands := [⟨.memOffs, .s8, true, .ea, true, .none, .none⟩, ⟨.areg, .s8, false, .none, false, .none,
      .none⟩], suffixes := some [.b], only64 := true },
    { opcode := [0xA3], operands := [⟨.memOffs, .s16, true, .ea, true, .none, .none⟩, ⟨.areg, .s16, false, .none, false, .none,
      .none⟩], opersize := 16, suffixes := some [.w], only64 := true },
    { opcode := [0xA3], operands := [⟨.memOffs, .s32, true, .ea, true, .none, .none⟩, ⟨.areg, .s32, false, .none, false, .none,
      .none⟩], opersize := 32, suffixes := some [.l], only64 := true },
    { opcode := [0xA3], operands := [⟨.memOffs, .s64, true, .ea, true, .none, .none⟩, ⟨.areg, .s64, false, .none, false, .none,
      .none⟩], opersize := 64, suffixes := some [.q], only64 := true },
    { opcode := [0xB8], operands := [⟨.reg, .s64, false, .op0Add, false, .none, .none⟩, ⟨.imm, .s64, true, .imm, false, .none,
      .none⟩], opersize := 64, suffixes := some [.q] } ]

/-- gen_x86_insn.py, `add_group("movszx", …)` at lines 1064, 1072, 1080, 1087, 1095. -/
def movszx_insn : List RawForm :=
  [ { opcode := [0x0F, 0x00], operands := [⟨.reg, .s16, false, .spare, false, .none, .none⟩, ⟨.rm, .s8, true, .ea, false, .none,
      .none⟩], modifiers := [.op1Add], cpu := [3], opersize := 16, suffixes := some [.b] },
    { opcode := [0x0F, 0x00], operands := [⟨.reg, .s32, false, .spare, false, .none, .none⟩, ⟨.rm, .s8, false, .ea, false,
      .none, .none⟩], modifiers := [.op1Add], cpu := [3], opersize := 32, suffixes := some [.b] },
    { opcode := [0x0F, 0x00], operands := [⟨.reg, .s64, false, .spare, false, .none, .none⟩, ⟨.rm, .s8, false, .ea, false,
      .none, .none⟩], modifiers := [.op1Add], opersize := 64, suffixes := some [.b] },
    { opcode := [0x0F, 0x01], operands := [⟨.reg, .s32, false, .spare, false, .none, .none⟩, ⟨.rm, .s16, false, .ea, false,
      .none, .none⟩], modifiers := [.op1Add], cpu := [3], opersize := 32, suffixes := some [.w] },
    { opcode := [0x0F, 0x01], operands := [⟨.reg, .s64, false, .spare, false, .none, .none⟩, ⟨.rm, .s16, false, .ea, false,
      .none, .none⟩], modifiers := [.op1Add], opersize := 64, suffixes := some [.w] } ]

/-- gen_x86_insn.py, `add_group("movsxd", …)` at lines 1119. -/
def movsxd_insn : List RawForm :=
  [ { opcode := [0x63], operands := [⟨.reg, .s64, false, .spare, false, .none, .none⟩, ⟨.rm, .s32, false, .ea, false, .none,
      .none⟩], opersize := 64, suffixes := some [.l] } ]

/-- gen_x86_insn.py, `add_group("push", …)` at lines
    1132, 1136, 1142, 1148, 1155, 1160, 1167, 1174, 1182, 1188, 1194, 1203, 1211, 1220, 1230, 1237, 1243, 1250, 1254,
  1260, 1266, 1270, 1276, 1282, 1286, 1292, 1298, 1302, 1308, 1314, 1317, 1322, 1327, 1330, 1335. -/
def push_insn : List RawForm :=
  [ { opcode := [0x50], operands := [⟨.reg, .bits, false, .op0Add, false, .none, .none⟩], def64 := 64 },
    { opcode := [0x50], operands := [⟨.reg, .s16, false, .op0Add, false, .none, .none⟩], opersize := 16, def64 := 64,
      suffixes := some [.w] },
    { opcode := [0x50], operands := [⟨.reg, .s32, false, .op0Add, false, .none, .none⟩], opersize := 32, suffixes := some [.l],
      not64 := true },
    { opcode := [0x50], operands := [⟨.reg, .s64, false, .op0Add, false, .none, .none⟩], def64 := 64, suffixes := some [.q],
      only64 := true },
    { opcode := [0xFF], operands := [⟨.rm, .bits, false, .ea, false, .none, .none⟩], def64 := 64, spare := 0x6 },
    { opcode := [0xFF], operands := [⟨.rm, .s16, false, .ea, false, .none, .none⟩], opersize := 16, def64 := 64, spare := 0x6,
      suffixes := some [.w] },
    { opcode := [0xFF], operands := [⟨.rm, .s32, false, .ea, false, .none, .none⟩], opersize := 32, spare := 0x6,
      suffixes := some [.l], not64 := true },
    { opcode := [0xFF], operands := [⟨.rm, .s64, false, .ea, false, .none, .none⟩], def64 := 64, spare := 0x6,
      suffixes := some [.q], only64 := true },
    { opcode := [0x6A], operands := [⟨.imm, .s8, false, .simm, false, .none, .none⟩], cpu := [1], def64 := 64, gas := false },
    { opcode := [0x6A], operands := [⟨.imm, .s8, true, .simm, false, .none, .none⟩], cpu := [1], def64 := 64, nasm := false },
    { opcode := [0x6A], opcode2 := [0x68], operands := [⟨.imm, .s32, true, .simm, false, .none, .simm8⟩], opersize := 64,
      def64 := 64, suffixes := some [.q], only64 := true },
    { opcode := [0x6A], opcode2 := [0x68], operands := [⟨.imm, .bits, true, .imm, false, .none, .simm8⟩], cpu := [1],
      not64 := true, gas := false },
    { opcode := [0x6A], opcode2 := [0x68], operands := [⟨.imm, .s16, true, .imm, false, .none, .simm8⟩], cpu := [1],
      opersize := 16, def64 := 64, suffixes := some [.w] },
    { opcode := [0x6A], opcode2 := [0x68], operands := [⟨.imm, .s32, true, .imm, false, .none, .simm8⟩], opersize := 32,
      suffixes := some [.l], not64 := true },
    { opcode := [0x68], operands := [⟨.imm, .s16, false, .imm, false, .none, .none⟩], cpu := [1], opersize := 16, def64 := 64,
      gas := false },
    { opcode := [0x68], operands := [⟨.imm, .s32, false, .imm, false, .none, .none⟩], opersize := 32, not64 := true,
      gas := false },
    { opcode := [0x68], operands := [⟨.imm, .s32, false, .simm, false, .none, .none⟩], opersize := 64, def64 := 64,
      only64 := true, gas := false },
    { opcode := [0x0E], operands := [⟨.cs, .any, false, .none, false, .none, .none⟩], not64 := true },
    { opcode := [0x0E], operands := [⟨.cs, .s16, false, .none, false, .none, .none⟩], opersize := 16, suffixes := some [.w],
      not64 := true },
    { opcode := [0x0E], operands := [⟨.cs, .s32, false, .none, false, .none, .none⟩], opersize := 32, suffixes := some [.l],
      not64 := true },
    { opcode := [0x16], operands := [⟨.ss, .any, false, .none, false, .none, .none⟩], not64 := true },
    { opcode := [0x16], operands := [⟨.ss, .s16, false, .none, false, .none, .none⟩], opersize := 16, suffixes := some [.w],
      not64 := true },
    { opcode := [0x16], operands := [⟨.ss, .s32, false, .none, false, .none, .none⟩], opersize := 32, suffixes := some [.l],
      not64 := true },
    { opcode := [0x1E], operands := [⟨.ds, .any, false, .none, false, .none, .none⟩], not64 := true },
    { opcode := [0x1E], operands := [⟨.ds, .s16, false, .none, false, .none, .none⟩], opersize := 16, suffixes := some [.w],
      not64 := true },
    { opcode := [0x1E], operands := [⟨.ds, .s32, false, .none, false, .none, .none⟩], opersize := 32, suffixes := some [.l],
      not64 := true },
    { opcode := [0x06], operands := [⟨.es, .any, false, .none, false, .none, .none⟩], not64 := true },
    { opcode := [0x06], operands := [⟨.es, .s16, false, .none, false, .none, .none⟩], opersize := 16, suffixes := some [.w],
      not64 := true },
    { opcode := [0x06], operands := [⟨.es, .s32, false, .none, false, .none, .none⟩], opersize := 32, suffixes := some [.l],
      not64 := true },
    { opcode := [0x0F, 0xA0], operands := [⟨.fs, .any, false, .none, false, .none, .none⟩] },
    { opcode := [0x0F, 0xA0], operands := [⟨.fs, .s16, false, .none, false, .none, .none⟩], opersize := 16,
      suffixes := some [.w] },
    { opcode := [0x0F, 0xA0], operands := [⟨.fs, .s32, false, .none, false, .none, .none⟩], opersize := 32,
      suffixes := some [.l] },
    { opcode := [0x0F, 0xA8], operands := [⟨.gs, .any, false, .none, false, .none, .none⟩] },
    { opcode := [0x0F, 0xA8], operands := [⟨.gs, .s16, false, .none, false, .none, .none⟩], opersize := 16,
      suffixes := some [.w] },
    { opcode := [0x0F, 0xA8], operands := [⟨.gs, .s32, false, .none, false, .none, .none⟩], opersize := 32,
      suffixes := some [.l] } ]

/-- The groups of this file. -/
def groups0 : List (List RawForm) :=
  [empty_insn, not64_insn, onebyte_insn, onebyte_prefix_insn, twobyte_insn, threebyte_insn, onebytemem_insn,
    twobytemem_insn, mov_insn, movabs_insn, movszx_insn, movsxd_insn, push_insn]

end Verif.Match
