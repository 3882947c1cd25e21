/-
The table of modules/arch/x86/gen_x86_insn.py: the calls of `add_group`, with its loops written out.  Made by reading the syntax tree
of the script; nothing but literals and the arithmetic on them is evaluated.
-/
import Verif.Match.Gen

namespace Verif.Match

/-- gen_x86_insn.py, `add_group("enter", …)` at lines 2682, 2691, 2703. -/
def enter_insn : List RawForm :=
  [ { opcode := [0xC8], operands := [⟨.imm, .s16, true, .ea, false, .none, .a16⟩, ⟨.imm, .s8, true, .imm, false, .none, .none⟩],
      cpu := [1], suffixes := some [.l], not64 := true, gasNoRev := true },
    { opcode := [0xC8], operands := [⟨.imm, .s16, true, .ea, false, .none, .a16⟩, ⟨.imm, .s8, true, .imm, false, .none, .none⟩],
      cpu := [1], opersize := 64, def64 := 64, suffixes := some [.q], only64 := true, gasNoRev := true },
    { opcode := [0xC8], operands := [⟨.imm, .s16, true, .ea, false, .none, .a16⟩, ⟨.imm, .s8, true, .imm, false, .none, .none⟩],
      cpu := [1], opersize := 16, suffixes := some [.w], gasNoRev := true, nasm := false } ]

/-- gen_x86_insn.py, `add_group("jcc", …)` at lines 2730, 2733, 2737, 2742, 2748, 2753, 2760, 2767, 2774. -/
def jcc_insn : List RawForm :=
  [ { opcode := [], operands := [⟨.imm, .any, false, .jmpRel, false, .none, .none⟩] },
    { opcode := [], operands := [⟨.imm, .s16, false, .jmpRel, false, .none, .none⟩], opersize := 16 },
    { opcode := [], operands := [⟨.imm, .s32, false, .jmpRel, false, .none, .none⟩], opersize := 32, not64 := true },
    { opcode := [], operands := [⟨.imm, .s32, false, .jmpRel, false, .none, .none⟩], opersize := 64, only64 := true },
    { opcode := [0x70], operands := [⟨.imm, .any, false, .jmpRel, false, .short, .none⟩], modifiers := [.op0Add], def64 := 64 },
    { opcode := [0x0F, 0x80], operands := [⟨.imm, .s16, false, .jmpRel, false, .near, .none⟩], modifiers := [.op1Add],
      cpu := [1], opersize := 16, def64 := 64 },
    { opcode := [0x0F, 0x80], operands := [⟨.imm, .s32, false, .jmpRel, false, .near, .none⟩], modifiers := [.op1Add],
      cpu := [3], opersize := 32, not64 := true },
    { opcode := [0x0F, 0x80], operands := [⟨.imm, .s32, false, .jmpRel, false, .near, .none⟩], modifiers := [.op1Add],
      opersize := 64, def64 := 64, only64 := true },
    { opcode := [0x0F, 0x80], operands := [⟨.imm, .any, false, .jmpRel, false, .near, .none⟩], modifiers := [.op1Add],
      cpu := [1], def64 := 64 } ]

/-- gen_x86_insn.py, `add_group("jcxz", …)` at lines 2815, 2819. -/
def jcxz_insn : List RawForm :=
  [ { opcode := [], operands := [⟨.imm, .any, false, .jmpRel, false, .none, .none⟩], modifiers := [.adSizeR] },
    { opcode := [0xE3], operands := [⟨.imm, .any, false, .jmpRel, false, .short, .none⟩], modifiers := [.adSizeR], def64 := 64 } ]

/-- gen_x86_insn.py, `add_group("loop", …)` at lines 2832, 2835, 2840, 2845, 2851, 2857. -/
def loop_insn : List RawForm :=
  [ { opcode := [], operands := [⟨.imm, .any, false, .jmpRel, false, .none, .none⟩] },
    { opcode := [], operands := [⟨.imm, .any, false, .jmpRel, false, .none, .none⟩, ⟨.creg, .s16, false, .adSizeR, false, .none,
      .none⟩], not64 := true },
    { opcode := [], operands := [⟨.imm, .any, false, .jmpRel, false, .none, .none⟩, ⟨.creg, .s32, false, .adSizeR, false, .none,
      .none⟩], def64 := 64 },
    { opcode := [], operands := [⟨.imm, .any, false, .jmpRel, false, .none, .none⟩, ⟨.creg, .s64, false, .adSizeR, false, .none,
      .none⟩], def64 := 64 },
    { opcode := [0xE0], operands := [⟨.imm, .any, false, .jmpRel, false, .short, .none⟩], modifiers := [.op0Add],
      not64 := true },
    { opcode := [0xE0], operands := [⟨.imm, .any, false, .jmpRel, false, .short, .none⟩, ⟨.creg, .s16, false, .adSizeR, false,
      .none, .none⟩], modifiers := [.op0Add], def64 := 64 },
    { opcode := [0xE0], operands := [⟨.imm, .any, false, .jmpRel, false, .short, .none⟩, ⟨.creg, .s32, false, .adSizeR, false,
      .none, .none⟩], modifiers := [.op0Add], def64 := 64 },
    { opcode := [0xE0], operands := [⟨.imm, .any, false, .jmpRel, false, .short, .none⟩, ⟨.creg, .s64, false, .adSizeR, false,
      .none, .none⟩], modifiers := [.op0Add], def64 := 64 } ]

/-- gen_x86_insn.py, `add_group("loopw", …)` at lines 2872, 2879, 2887, 2894. -/
def loopw_insn : List RawForm :=
  [ { opcode := [], operands := [⟨.imm, .any, false, .jmpRel, false, .none, .none⟩], modifiers := [.gap, .adSizeR], def64 := 64,
      not64 := true },
    { opcode := [0xE0], operands := [⟨.imm, .any, false, .jmpRel, false, .short, .none⟩], modifiers := [.op0Add, .adSizeR],
      def64 := 64, not64 := true },
    { opcode := [], operands := [⟨.imm, .any, false, .jmpRel, false, .none, .none⟩, ⟨.creg, .s16, false, .adSizeR, false, .none,
      .none⟩], def64 := 64, not64 := true },
    { opcode := [0xE0], operands := [⟨.imm, .any, false, .jmpRel, false, .short, .none⟩, ⟨.creg, .s16, false, .adSizeR, false,
      .none, .none⟩], modifiers := [.op0Add], def64 := 64, not64 := true } ]

/-- gen_x86_insn.py, `add_group("loopl", …)` at lines 2872, 2879, 2887, 2894. -/
def loopl_insn : List RawForm :=
  [ { opcode := [], operands := [⟨.imm, .any, false, .jmpRel, false, .none, .none⟩], modifiers := [.gap, .adSizeR],
      def64 := 64 },
    { opcode := [0xE0], operands := [⟨.imm, .any, false, .jmpRel, false, .short, .none⟩], modifiers := [.op0Add, .adSizeR],
      def64 := 64 },
    { opcode := [], operands := [⟨.imm, .any, false, .jmpRel, false, .none, .none⟩, ⟨.creg, .s32, false, .adSizeR, false, .none,
      .none⟩], def64 := 64 },
    { opcode := [0xE0], operands := [⟨.imm, .any, false, .jmpRel, false, .short, .none⟩, ⟨.creg, .s32, false, .adSizeR, false,
      .none, .none⟩], modifiers := [.op0Add], def64 := 64 } ]

/-- gen_x86_insn.py, `add_group("loopq", …)` at lines 2872, 2879, 2887, 2894. -/
def loopq_insn : List RawForm :=
  [ { opcode := [], operands := [⟨.imm, .any, false, .jmpRel, false, .none, .none⟩], modifiers := [.gap, .adSizeR], def64 := 64,
      only64 := true },
    { opcode := [0xE0], operands := [⟨.imm, .any, false, .jmpRel, false, .short, .none⟩], modifiers := [.op0Add, .adSizeR],
      def64 := 64, only64 := true },
    { opcode := [], operands := [⟨.imm, .any, false, .jmpRel, false, .none, .none⟩, ⟨.creg, .s64, false, .adSizeR, false, .none,
      .none⟩], def64 := 64, only64 := true },
    { opcode := [0xE0], operands := [⟨.imm, .any, false, .jmpRel, false, .short, .none⟩, ⟨.creg, .s64, false, .adSizeR, false,
      .none, .none⟩], modifiers := [.op0Add], def64 := 64, only64 := true } ]

/-- gen_x86_insn.py, `add_group("setcc", …)` at lines 2912. -/
def setcc_insn : List RawForm :=
  [ { opcode := [0x0F, 0x90], operands := [⟨.rm, .s8, true, .ea, false, .none, .none⟩], modifiers := [.op1Add], cpu := [3],
      spare := 0x2, suffixes := some [.b] } ]

/-- gen_x86_insn.py, `add_group("cmpsd", …)` at lines 2958, 5303, 5311, 5319, 5328. -/
def cmpsd_insn : List RawForm :=
  [ { opcode := [0xA7], opersize := 32, notavx := true, gas := false },
    { opcode := [0x0F, 0xC2], operands := [⟨.simdReg, .s128, false, .spareVEX, false, .none, .none⟩, ⟨.simdReg, .s128, false,
      .ea, false, .none, .none⟩, ⟨.imm, .s8, true, .imm, false, .none, .none⟩], modifiers := [.setVEX], cpu := [16],
      pfx := 0xF2 },
    { opcode := [0x0F, 0xC2], operands := [⟨.simdReg, .s128, false, .spareVEX, false, .none, .none⟩, ⟨.mem, .s64, true, .ea,
      false, .none, .none⟩, ⟨.imm, .s8, true, .imm, false, .none, .none⟩], modifiers := [.setVEX], cpu := [16], pfx := 0xF2 },
    { opcode := [0x0F, 0xC2], operands := [⟨.simdReg, .s128, false, .spare, false, .none, .none⟩, ⟨.simdReg, .s128, false, .vex,
      false, .none, .none⟩, ⟨.simdReg, .s128, false, .ea, false, .none, .none⟩, ⟨.imm, .s8, true, .imm, false, .none, .none⟩],
      cpu := [34], pfx := 0xF2, vex := some 128 },
    { opcode := [0x0F, 0xC2], operands := [⟨.simdReg, .s128, false, .spare, false, .none, .none⟩, ⟨.simdReg, .s128, false, .vex,
      false, .none, .none⟩, ⟨.mem, .s64, true, .ea, false, .none, .none⟩, ⟨.imm, .s8, true, .imm, false, .none, .none⟩],
      cpu := [34], pfx := 0xF2, vex := some 128 } ]

/-- gen_x86_insn.py, `add_group("movsd", …)` at lines 2988, 5360, 5367, 5374, 5381. -/
def movsd_insn : List RawForm :=
  [ { opcode := [0xA5], opersize := 32, notavx := true },
    { opcode := [0x0F, 0x10], operands := [⟨.simdReg, .s128, false, .spareVEX, false, .none, .none⟩, ⟨.simdReg, .s128, false,
      .ea, false, .none, .none⟩], modifiers := [.setVEX], cpu := [16], pfx := 0xF2 },
    { opcode := [0x0F, 0x10], operands := [⟨.simdReg, .s128, false, .spare, false, .none, .none⟩, ⟨.mem, .s64, true, .ea, false,
      .none, .none⟩], modifiers := [.setVEX], cpu := [16], pfx := 0xF2 },
    { opcode := [0x0F, 0x11], operands := [⟨.mem, .s64, true, .ea, false, .none, .none⟩, ⟨.simdReg, .s128, false, .spare, false,
      .none, .none⟩], modifiers := [.setVEX], cpu := [16], pfx := 0xF2 },
    { opcode := [0x0F, 0x10], operands := [⟨.simdReg, .s128, false, .spare, false, .none, .none⟩, ⟨.simdReg, .s128, false, .vex,
      false, .none, .none⟩, ⟨.simdReg, .s128, false, .ea, false, .none, .none⟩], cpu := [34], pfx := 0xF2, vex := some 128 } ]

/-- gen_x86_insn.py, `add_group("bittest", …)` at lines 3031, 3040. -/
def bittest_insn : List RawForm :=
  [ { opcode := [0x0F, 0x00], operands := [⟨.rm, .s16, true, .ea, false, .none, .none⟩, ⟨.reg, .s16, false, .spare, false,
      .none, .none⟩], modifiers := [.op1Add], cpu := [3], opersize := 16, suffixes := some [.w] },
    { opcode := [0x0F, 0x00], operands := [⟨.rm, .s32, true, .ea, false, .none, .none⟩, ⟨.reg, .s32, false, .spare, false,
      .none, .none⟩], modifiers := [.op1Add], cpu := [3], opersize := 32, suffixes := some [.l] },
    { opcode := [0x0F, 0x00], operands := [⟨.rm, .s64, true, .ea, false, .none, .none⟩, ⟨.reg, .s64, false, .spare, false,
      .none, .none⟩], modifiers := [.op1Add], cpu := [3], opersize := 64, suffixes := some [.q] },
    { opcode := [0x0F, 0xBA], operands := [⟨.rm, .s16, false, .ea, false, .none, .none⟩, ⟨.imm, .s8, true, .imm, false, .none,
      .none⟩], modifiers := [.gap, .spAdd], cpu := [3], opersize := 16, suffixes := some [.w] },
    { opcode := [0x0F, 0xBA], operands := [⟨.rm, .s32, false, .ea, false, .none, .none⟩, ⟨.imm, .s8, true, .imm, false, .none,
      .none⟩], modifiers := [.gap, .spAdd], cpu := [3], opersize := 32, suffixes := some [.l] },
    { opcode := [0x0F, 0xBA], operands := [⟨.rm, .s64, false, .ea, false, .none, .none⟩, ⟨.imm, .s8, true, .imm, false, .none,
      .none⟩], modifiers := [.gap, .spAdd], cpu := [3], opersize := 64, suffixes := some [.q] } ]

/-- gen_x86_insn.py, `add_group("bsfr", …)` at lines 3059. -/
def bsfr_insn : List RawForm :=
  [ { opcode := [0x0F, 0x00], operands := [⟨.reg, .s16, false, .spare, false, .none, .none⟩, ⟨.rm, .s16, true, .ea, false,
      .none, .none⟩], modifiers := [.op1Add], opersize := 16, suffixes := some [.w] },
    { opcode := [0x0F, 0x00], operands := [⟨.reg, .s32, false, .spare, false, .none, .none⟩, ⟨.rm, .s32, true, .ea, false,
      .none, .none⟩], modifiers := [.op1Add], opersize := 32, suffixes := some [.l] },
    { opcode := [0x0F, 0x00], operands := [⟨.reg, .s64, false, .spare, false, .none, .none⟩, ⟨.rm, .s64, true, .ea, false,
      .none, .none⟩], modifiers := [.op1Add], opersize := 64, suffixes := some [.q] } ]

/-- gen_x86_insn.py, `add_group("int", …)` at lines 3073. -/
def int_insn : List RawForm :=
  [ { opcode := [0xCD], operands := [⟨.imm, .s8, true, .imm, false, .none, .none⟩] } ]

/-- gen_x86_insn.py, `add_group("bound", …)` at lines 3090. -/
def bound_insn : List RawForm :=
  [ { opcode := [0x62], operands := [⟨.reg, .s16, false, .spare, false, .none, .none⟩, ⟨.mem, .s16, true, .ea, false, .none,
      .none⟩], cpu := [1], opersize := 16, suffixes := some [.w], not64 := true },
    { opcode := [0x62], operands := [⟨.reg, .s32, false, .spare, false, .none, .none⟩, ⟨.mem, .s32, true, .ea, false, .none,
      .none⟩], cpu := [1], opersize := 32, suffixes := some [.l], not64 := true } ]

/-- gen_x86_insn.py, `add_group("larlsl", …)` at lines 3107, 3114. -/
def larlsl_insn : List RawForm :=
  [ { opcode := [0x0F, 0x00], operands := [⟨.reg, .s16, false, .spare, false, .none, .none⟩, ⟨.reg, .s16, false, .ea, false,
      .none, .none⟩], modifiers := [.op1Add], opersize := 16, suffixes := some [.w] },
    { opcode := [0x0F, 0x00], operands := [⟨.reg, .s16, false, .spare, false, .none, .none⟩, ⟨.rm, .s16, true, .ea, false,
      .none, .none⟩], modifiers := [.op1Add], opersize := 16, suffixes := some [.w] },
    { opcode := [0x0F, 0x00], operands := [⟨.reg, .s32, false, .spare, false, .none, .none⟩, ⟨.reg, .s32, false, .ea, false,
      .none, .none⟩], modifiers := [.op1Add], opersize := 32, suffixes := some [.l] },
    { opcode := [0x0F, 0x00], operands := [⟨.reg, .s32, false, .spare, false, .none, .none⟩, ⟨.rm, .s16, true, .ea, false,
      .none, .none⟩], modifiers := [.op1Add], opersize := 32, suffixes := some [.l] },
    { opcode := [0x0F, 0x00], operands := [⟨.reg, .s64, false, .spare, false, .none, .none⟩, ⟨.reg, .s32, false, .ea, false,
      .none, .none⟩], modifiers := [.op1Add], opersize := 64, suffixes := some [.q] },
    { opcode := [0x0F, 0x00], operands := [⟨.reg, .s64, false, .spare, false, .none, .none⟩, ⟨.rm, .s16, true, .ea, false,
      .none, .none⟩], modifiers := [.op1Add], opersize := 64, suffixes := some [.q] } ]

/-- gen_x86_insn.py, `add_group("arpl", …)` at lines 3125. -/
def arpl_insn : List RawForm :=
  [ { opcode := [0x63], operands := [⟨.rm, .s16, true, .ea, false, .none, .none⟩, ⟨.reg, .s16, false, .spare, false, .none,
      .none⟩], cpu := [22, 2], suffixes := some [.w], not64 := true } ]

/-- gen_x86_insn.py, `add_group("str", …)` at lines 3146, 3153. -/
def str_insn : List RawForm :=
  [ { opcode := [0x0F, 0x00], operands := [⟨.reg, .s16, false, .ea, false, .none, .none⟩], cpu := [22, 2], opersize := 16,
      spare := 0x1, suffixes := some [.w] },
    { opcode := [0x0F, 0x00], operands := [⟨.reg, .s32, false, .ea, false, .none, .none⟩], cpu := [22, 2], opersize := 32,
      spare := 0x1, suffixes := some [.l] },
    { opcode := [0x0F, 0x00], operands := [⟨.reg, .s64, false, .ea, false, .none, .none⟩], cpu := [22, 2], opersize := 64,
      spare := 0x1, suffixes := some [.q] },
    { opcode := [0x0F, 0x00], operands := [⟨.rm, .s16, true, .ea, false, .none, .none⟩], cpu := [22, 2], spare := 0x1,
      suffixes := some [.w, .l] } ]

/-- gen_x86_insn.py, `add_group("prot286", …)` at lines 3162. -/
def prot286_insn : List RawForm :=
  [ { opcode := [0x0F, 0x00], operands := [⟨.rm, .s16, true, .ea, false, .none, .none⟩], modifiers := [.spAdd, .op1Add],
      cpu := [2], suffixes := some [.w] } ]

/-- gen_x86_insn.py, `add_group("sldtmsw", …)` at lines 3177, 3186. -/
def sldtmsw_insn : List RawForm :=
  [ { opcode := [0x0F, 0x00], operands := [⟨.mem, .s16, true, .ea, false, .none, .none⟩], modifiers := [.spAdd, .op1Add],
      cpu := [2], suffixes := some [.w] },
    { opcode := [0x0F, 0x00], operands := [⟨.mem, .s32, true, .ea, false, .none, .none⟩], modifiers := [.spAdd, .op1Add],
      cpu := [3], suffixes := some [.l] },
    { opcode := [0x0F, 0x00], operands := [⟨.mem, .s64, true, .ea, false, .none, .none⟩], modifiers := [.spAdd, .op1Add],
      cpu := [2], suffixes := some [.q], only64 := true },
    { opcode := [0x0F, 0x00], operands := [⟨.reg, .s16, false, .ea, false, .none, .none⟩], modifiers := [.spAdd, .op1Add],
      cpu := [2], opersize := 16, suffixes := some [.w] },
    { opcode := [0x0F, 0x00], operands := [⟨.reg, .s32, false, .ea, false, .none, .none⟩], modifiers := [.spAdd, .op1Add],
      cpu := [2], opersize := 32, suffixes := some [.l] },
    { opcode := [0x0F, 0x00], operands := [⟨.reg, .s64, false, .ea, false, .none, .none⟩], modifiers := [.spAdd, .op1Add],
      cpu := [2], opersize := 64, suffixes := some [.q] } ]

/-- gen_x86_insn.py, `add_group("fld", …)` at lines 3255, 3260, 3265, 3270. -/
def fld_insn : List RawForm :=
  [ { opcode := [0xD9], operands := [⟨.mem, .s32, false, .ea, false, .none, .none⟩], cpu := [13], suffixes := some [.s] },
    { opcode := [0xDD], operands := [⟨.mem, .s64, false, .ea, false, .none, .none⟩], cpu := [13], suffixes := some [.l] },
    { opcode := [0xDB], operands := [⟨.mem, .s80, false, .ea, false, .none, .none⟩], cpu := [13], spare := 0x5 },
    { opcode := [0xD9, 0xC0], operands := [⟨.reg, .s80, false, .op1Add, false, .none, .none⟩], cpu := [13] } ]

/-- gen_x86_insn.py, `add_group("fstp", …)` at lines 3277, 3283, 3289, 3294. -/
def fstp_insn : List RawForm :=
  [ { opcode := [0xD9], operands := [⟨.mem, .s32, false, .ea, false, .none, .none⟩], cpu := [13], spare := 0x3,
      suffixes := some [.s] },
    { opcode := [0xDD], operands := [⟨.mem, .s64, false, .ea, false, .none, .none⟩], cpu := [13], spare := 0x3,
      suffixes := some [.l] },
    { opcode := [0xDB], operands := [⟨.mem, .s80, false, .ea, false, .none, .none⟩], cpu := [13], spare := 0x7 },
    { opcode := [0xDD, 0xD8], operands := [⟨.reg, .s80, false, .op1Add, false, .none, .none⟩], cpu := [13] } ]

/-- gen_x86_insn.py, `add_group("fldstpt", …)` at lines 3304. -/
def fldstpt_insn : List RawForm :=
  [ { opcode := [0xDB], operands := [⟨.mem, .s80, true, .ea, false, .none, .none⟩], modifiers := [.spAdd], cpu := [13] } ]

/-- gen_x86_insn.py, `add_group("fildstp", …)` at lines 3314, 3321, 3328, 3336. -/
def fildstp_insn : List RawForm :=
  [ { opcode := [0xDF], operands := [⟨.mem, .s16, false, .ea, false, .none, .none⟩], modifiers := [.spAdd], cpu := [13],
      suffixes := some [.s] },
    { opcode := [0xDB], operands := [⟨.mem, .s32, false, .ea, false, .none, .none⟩], modifiers := [.spAdd], cpu := [13],
      suffixes := some [.l] },
    { opcode := [0xDD], operands := [⟨.mem, .s64, false, .ea, false, .none, .none⟩], modifiers := [.gap, .op0Add, .spAdd],
      cpu := [13], suffixes := some [.q] },
    { opcode := [0xDF], operands := [⟨.mem, .s16, true, .ea, false, .none, .none⟩], modifiers := [.spAdd], cpu := [13],
      nasm := false } ]

/-- gen_x86_insn.py, `add_group("fbldstp", …)` at lines 3347. -/
def fbldstp_insn : List RawForm :=
  [ { opcode := [0xDF], operands := [⟨.mem, .s80, true, .ea, false, .none, .none⟩], modifiers := [.spAdd], cpu := [13] } ]

/-- gen_x86_insn.py, `add_group("fst", …)` at lines 3362, 3368, 3374. -/
def fst_insn : List RawForm :=
  [ { opcode := [0xD9], operands := [⟨.mem, .s32, false, .ea, false, .none, .none⟩], cpu := [13], spare := 0x2,
      suffixes := some [.s] },
    { opcode := [0xDD], operands := [⟨.mem, .s64, false, .ea, false, .none, .none⟩], cpu := [13], spare := 0x2,
      suffixes := some [.l] },
    { opcode := [0xDD, 0xD0], operands := [⟨.reg, .s80, false, .op1Add, false, .none, .none⟩], cpu := [13] } ]

/-- gen_x86_insn.py, `add_group("fxch", …)` at lines 3384, 3388, 3393, 3398. -/
def fxch_insn : List RawForm :=
  [ { opcode := [0xD9, 0xC8], operands := [⟨.reg, .s80, false, .op1Add, false, .none, .none⟩], cpu := [13] },
    { opcode := [0xD9, 0xC8], operands := [⟨.st0, .s80, false, .none, false, .none, .none⟩, ⟨.reg, .s80, false, .op1Add, false,
      .none, .none⟩], cpu := [13] },
    { opcode := [0xD9, 0xC8], operands := [⟨.reg, .s80, false, .op1Add, false, .none, .none⟩, ⟨.st0, .s80, false, .none, false,
      .none, .none⟩], cpu := [13] },
    { opcode := [0xD9, 0xC9], cpu := [13] } ]

/-- gen_x86_insn.py, `add_group("fcom", …)` at lines 3408, 3415, 3422, 3428, 3436, 3442. -/
def fcom_insn : List RawForm :=
  [ { opcode := [0xD8], operands := [⟨.mem, .s32, false, .ea, false, .none, .none⟩], modifiers := [.gap, .spAdd], cpu := [13],
      suffixes := some [.s] },
    { opcode := [0xDC], operands := [⟨.mem, .s64, false, .ea, false, .none, .none⟩], modifiers := [.gap, .spAdd], cpu := [13],
      suffixes := some [.l] },
    { opcode := [0xD8, 0x00], operands := [⟨.reg, .s80, false, .op1Add, false, .none, .none⟩], modifiers := [.op1Add],
      cpu := [13] },
    { opcode := [0xD8], operands := [⟨.mem, .s32, true, .ea, false, .none, .none⟩], modifiers := [.gap, .spAdd], cpu := [13],
      nasm := false },
    { opcode := [0xD8, 0x01], modifiers := [.op1Add], cpu := [13], nasm := false },
    { opcode := [0xD8, 0x00], operands := [⟨.st0, .s80, false, .none, false, .none, .none⟩, ⟨.reg, .s80, false, .op1Add, false,
      .none, .none⟩], modifiers := [.op1Add], cpu := [13], gas := false } ]

/-- gen_x86_insn.py, `add_group("fcom2", …)` at lines 3456, 3461. -/
def fcom2_insn : List RawForm :=
  [ { opcode := [0x00, 0x00], operands := [⟨.reg, .s80, false, .op1Add, false, .none, .none⟩], modifiers := [.op0Add, .op1Add],
      cpu := [13, 2] },
    { opcode := [0x00, 0x00], operands := [⟨.st0, .s80, false, .none, false, .none, .none⟩, ⟨.reg, .s80, false, .op1Add, false,
      .none, .none⟩], modifiers := [.op0Add, .op1Add], cpu := [13, 2] } ]

/-- gen_x86_insn.py, `add_group("farith", …)` at lines 3474, 3481, 3488, 3493, 3499, 3504, 3511. -/
def farith_insn : List RawForm :=
  [ { opcode := [0xD8], operands := [⟨.mem, .s32, false, .ea, false, .none, .none⟩], modifiers := [.gap, .gap, .spAdd],
      cpu := [13], suffixes := some [.s] },
    { opcode := [0xDC], operands := [⟨.mem, .s64, false, .ea, false, .none, .none⟩], modifiers := [.gap, .gap, .spAdd],
      cpu := [13], suffixes := some [.l] },
    { opcode := [0xD8, 0x00], operands := [⟨.reg, .s80, false, .op1Add, false, .none, .none⟩], modifiers := [.gap, .op1Add],
      cpu := [13] },
    { opcode := [0xD8, 0x00], operands := [⟨.st0, .s80, false, .none, false, .none, .none⟩, ⟨.reg, .s80, false, .op1Add, false,
      .none, .none⟩], modifiers := [.gap, .op1Add], cpu := [13] },
    { opcode := [0xDC, 0x00], operands := [⟨.reg, .s80, false, .op1Add, false, .to, .none⟩], modifiers := [.op1Add],
      cpu := [13] },
    { opcode := [0xDC, 0x00], operands := [⟨.reg, .s80, false, .op1Add, false, .none, .none⟩, ⟨.st0, .s80, false, .none, false,
      .none, .none⟩], modifiers := [.op1Add], cpu := [13], gas := false },
    { opcode := [0xDC, 0x00], operands := [⟨.reg, .s80, false, .op1Add, false, .none, .none⟩, ⟨.st0, .s80, false, .none, false,
      .none, .none⟩], modifiers := [.gap, .op1Add], cpu := [13], nasm := false } ]

/-- gen_x86_insn.py, `add_group("farithp", …)` at lines 3526, 3531, 3536. -/
def farithp_insn : List RawForm :=
  [ { opcode := [0xDE, 0x01], modifiers := [.op1Add], cpu := [13] },
    { opcode := [0xDE, 0x00], operands := [⟨.reg, .s80, false, .op1Add, false, .none, .none⟩], modifiers := [.op1Add],
      cpu := [13] },
    { opcode := [0xDE, 0x00], operands := [⟨.reg, .s80, false, .op1Add, false, .none, .none⟩, ⟨.st0, .s80, false, .none, false,
      .none, .none⟩], modifiers := [.op1Add], cpu := [13] } ]

/-- gen_x86_insn.py, `add_group("fiarith", …)` at lines 3557, 3564. -/
def fiarith_insn : List RawForm :=
  [ { opcode := [0x04], operands := [⟨.mem, .s16, false, .ea, false, .none, .none⟩], modifiers := [.spAdd, .op0Add],
      cpu := [13], suffixes := some [.s] },
    { opcode := [0x00], operands := [⟨.mem, .s32, false, .ea, false, .none, .none⟩], modifiers := [.spAdd, .op0Add],
      cpu := [13], suffixes := some [.l] } ]

/-- gen_x86_insn.py, `add_group("fldnstcw", …)` at lines 3585. -/
def fldnstcw_insn : List RawForm :=
  [ { opcode := [0xD9], operands := [⟨.mem, .s16, true, .ea, false, .none, .none⟩], modifiers := [.spAdd], cpu := [13],
      suffixes := some [.w] } ]

/-- gen_x86_insn.py, `add_group("fstcw", …)` at lines 3596. -/
def fstcw_insn : List RawForm :=
  [ { opcode := [0x9B, 0xD9], operands := [⟨.mem, .s16, true, .ea, false, .none, .none⟩], cpu := [13], spare := 0x7,
      suffixes := some [.w] } ]

/-- gen_x86_insn.py, `add_group("fnstsw", …)` at lines 3605, 3611. -/
def fnstsw_insn : List RawForm :=
  [ { opcode := [0xDD], operands := [⟨.mem, .s16, true, .ea, false, .none, .none⟩], cpu := [13], spare := 0x7,
      suffixes := some [.w] },
    { opcode := [0xDF, 0xE0], operands := [⟨.areg, .s16, false, .none, false, .none, .none⟩], cpu := [13],
      suffixes := some [.w] } ]

/-- The groups of this file. -/
def groups3 : List (List RawForm) :=
  [enter_insn, jcc_insn, jcxz_insn, loop_insn, loopw_insn, loopl_insn, loopq_insn, setcc_insn, cmpsd_insn, movsd_insn,
    bittest_insn, bsfr_insn, int_insn, bound_insn, larlsl_insn, arpl_insn, str_insn, prot286_insn, sldtmsw_insn,
    fld_insn, fstp_insn, fldstpt_insn, fildstp_insn, fbldstp_insn, fst_insn, fxch_insn, fcom_insn, fcom2_insn,
    farith_insn, farithp_insn, fiarith_insn, fldnstcw_insn, fstcw_insn, fnstsw_insn]

end Verif.Match
