/-
The table of modules/arch/x86/gen_x86_insn.py: the calls of `add_group`, with its loops written out.  Made by reading the syntax tree
of the script; nothing but literals and the arithmetic on them is evaluated.
-/
import Verif.Match.Gen

namespace Verif.Match

/-- gen_x86_insn.py, `add_group("pop", …)` at lines
    1352, 1356, 1362, 1368, 1375, 1379, 1385, 1391, 1405, 1409, 1414, 1419, 1423, 1428, 1433, 1437, 1442, 1447, 1450,
  1454, 1458, 1461, 1465. -/
def pop_insn : List RawForm :=
  [ { opcode := [0x58], operands := [⟨.reg, .bits, false, .op0Add, false, .none, .none⟩], def64 := 64 },
    { opcode := [0x58], operands := [⟨.reg, .s16, false, .op0Add, false, .none, .none⟩], opersize := 16, def64 := 64,
      suffixes := some [.w] },
    { opcode := [0x58], operands := [⟨.reg, .s32, false, .op0Add, false, .none, .none⟩], opersize := 32, suffixes := some [.l],
      not64 := true },
    { opcode := [0x58], operands := [⟨.reg, .s64, false, .op0Add, false, .none, .none⟩], def64 := 64, suffixes := some [.q],
      only64 := true },
    { opcode := [0x8F], operands := [⟨.rm, .bits, false, .ea, false, .none, .none⟩], def64 := 64 },
    { opcode := [0x8F], operands := [⟨.rm, .s16, false, .ea, false, .none, .none⟩], opersize := 16, def64 := 64,
      suffixes := some [.w] },
    { opcode := [0x8F], operands := [⟨.rm, .s32, false, .ea, false, .none, .none⟩], opersize := 32, suffixes := some [.l],
      not64 := true },
    { opcode := [0x8F], operands := [⟨.rm, .s64, false, .ea, false, .none, .none⟩], def64 := 64, suffixes := some [.q],
      only64 := true },
    { opcode := [0x17], operands := [⟨.ss, .any, false, .none, false, .none, .none⟩], not64 := true },
    { opcode := [0x17], operands := [⟨.ss, .s16, false, .none, false, .none, .none⟩], opersize := 16, not64 := true },
    { opcode := [0x17], operands := [⟨.ss, .s32, false, .none, false, .none, .none⟩], opersize := 32, not64 := true },
    { opcode := [0x1F], operands := [⟨.ds, .any, false, .none, false, .none, .none⟩], not64 := true },
    { opcode := [0x1F], operands := [⟨.ds, .s16, false, .none, false, .none, .none⟩], opersize := 16, not64 := true },
    { opcode := [0x1F], operands := [⟨.ds, .s32, false, .none, false, .none, .none⟩], opersize := 32, not64 := true },
    { opcode := [0x07], operands := [⟨.es, .any, false, .none, false, .none, .none⟩], not64 := true },
    { opcode := [0x07], operands := [⟨.es, .s16, false, .none, false, .none, .none⟩], opersize := 16, not64 := true },
    { opcode := [0x07], operands := [⟨.es, .s32, false, .none, false, .none, .none⟩], opersize := 32, not64 := true },
    { opcode := [0x0F, 0xA1], operands := [⟨.fs, .any, false, .none, false, .none, .none⟩] },
    { opcode := [0x0F, 0xA1], operands := [⟨.fs, .s16, false, .none, false, .none, .none⟩], opersize := 16 },
    { opcode := [0x0F, 0xA1], operands := [⟨.fs, .s32, false, .none, false, .none, .none⟩], opersize := 32 },
    { opcode := [0x0F, 0xA9], operands := [⟨.gs, .any, false, .none, false, .none, .none⟩] },
    { opcode := [0x0F, 0xA9], operands := [⟨.gs, .s16, false, .none, false, .none, .none⟩], opersize := 16 },
    { opcode := [0x0F, 0xA9], operands := [⟨.gs, .s32, false, .none, false, .none, .none⟩], opersize := 32 } ]

/-- gen_x86_insn.py, `add_group("xchg", …)` at lines
    1481, 1486, 1502, 1508, 1514, 1520, 1534, 1541, 1547, 1553, 1559, 1567, 1573, 1579, 1585, 1591. -/
def xchg_insn : List RawForm :=
  [ { opcode := [0x86], operands := [⟨.rm, .s8, true, .ea, false, .none, .none⟩, ⟨.reg, .s8, false, .spare, false, .none,
      .none⟩], suffixes := some [.b] },
    { opcode := [0x86], operands := [⟨.reg, .s8, false, .spare, false, .none, .none⟩, ⟨.rm, .s8, true, .ea, false, .none,
      .none⟩], suffixes := some [.b] },
    { opcode := [0x90], operands := [⟨.areg, .s16, false, .none, false, .none, .none⟩, ⟨.reg, .s16, false, .op0Add, false,
      .none, .none⟩], opersize := 16, suffixes := some [.w] },
    { opcode := [0x90], operands := [⟨.reg, .s16, false, .op0Add, false, .none, .none⟩, ⟨.areg, .s16, false, .none, false,
      .none, .none⟩], opersize := 16, suffixes := some [.w] },
    { opcode := [0x87], operands := [⟨.rm, .s16, true, .ea, false, .none, .none⟩, ⟨.reg, .s16, false, .spare, false, .none,
      .none⟩], opersize := 16, suffixes := some [.w] },
    { opcode := [0x87], operands := [⟨.reg, .s16, false, .spare, false, .none, .none⟩, ⟨.rm, .s16, true, .ea, false, .none,
      .none⟩], opersize := 16, suffixes := some [.w] },
    { opcode := [0x87], operands := [⟨.areg, .s32, false, .ea, false, .none, .none⟩, ⟨.areg, .s32, false, .spare, false, .none,
      .none⟩], opersize := 32, suffixes := some [.l], only64 := true },
    { opcode := [0x90], operands := [⟨.areg, .s32, false, .none, false, .none, .none⟩, ⟨.reg, .s32, false, .op0Add, false,
      .none, .none⟩], opersize := 32, suffixes := some [.l] },
    { opcode := [0x90], operands := [⟨.reg, .s32, false, .op0Add, false, .none, .none⟩, ⟨.areg, .s32, false, .none, false,
      .none, .none⟩], opersize := 32, suffixes := some [.l] },
    { opcode := [0x87], operands := [⟨.rm, .s32, true, .ea, false, .none, .none⟩, ⟨.reg, .s32, false, .spare, false, .none,
      .none⟩], opersize := 32, suffixes := some [.l] },
    { opcode := [0x87], operands := [⟨.reg, .s32, false, .spare, false, .none, .none⟩, ⟨.rm, .s32, true, .ea, false, .none,
      .none⟩], opersize := 32, suffixes := some [.l] },
    { opcode := [0x90], operands := [⟨.areg, .s64, false, .none, false, .none, .none⟩, ⟨.areg, .s64, false, .op0Add, false,
      .none, .none⟩], suffixes := some [.q], only64 := true },
    { opcode := [0x90], operands := [⟨.areg, .s64, false, .none, false, .none, .none⟩, ⟨.reg, .s64, false, .op0Add, false,
      .none, .none⟩], opersize := 64, suffixes := some [.q] },
    { opcode := [0x90], operands := [⟨.reg, .s64, false, .op0Add, false, .none, .none⟩, ⟨.areg, .s64, false, .none, false,
      .none, .none⟩], opersize := 64, suffixes := some [.q] },
    { opcode := [0x87], operands := [⟨.rm, .s64, true, .ea, false, .none, .none⟩, ⟨.reg, .s64, false, .spare, false, .none,
      .none⟩], opersize := 64, suffixes := some [.q] },
    { opcode := [0x87], operands := [⟨.reg, .s64, false, .spare, false, .none, .none⟩, ⟨.rm, .s64, true, .ea, false, .none,
      .none⟩], opersize := 64, suffixes := some [.q] } ]

/-- gen_x86_insn.py, `add_group("in", …)` at lines 1603, 1609, 1615, 1621, 1628, 1634, 1640, 1645, 1651. -/
def in_insn : List RawForm :=
  [ { opcode := [0xE4], operands := [⟨.areg, .s8, false, .none, false, .none, .none⟩, ⟨.imm, .s8, true, .imm, false, .none,
      .none⟩], suffixes := some [.b] },
    { opcode := [0xE5], operands := [⟨.areg, .s16, false, .none, false, .none, .none⟩, ⟨.imm, .s8, true, .imm, false, .none,
      .none⟩], opersize := 16, suffixes := some [.w] },
    { opcode := [0xE5], operands := [⟨.areg, .s32, false, .none, false, .none, .none⟩, ⟨.imm, .s8, true, .imm, false, .none,
      .none⟩], opersize := 32, suffixes := some [.l] },
    { opcode := [0xEC], operands := [⟨.areg, .s8, false, .none, false, .none, .none⟩, ⟨.dreg, .s16, false, .none, false, .none,
      .none⟩], suffixes := some [.b] },
    { opcode := [0xED], operands := [⟨.areg, .s16, false, .none, false, .none, .none⟩, ⟨.dreg, .s16, false, .none, false, .none,
      .none⟩], opersize := 16, suffixes := some [.w] },
    { opcode := [0xED], operands := [⟨.areg, .s32, false, .none, false, .none, .none⟩, ⟨.dreg, .s16, false, .none, false, .none,
      .none⟩], opersize := 32, suffixes := some [.l] },
    { opcode := [0xE4], operands := [⟨.imm, .s8, true, .imm, false, .none, .none⟩], suffixes := some [.b], nasm := false },
    { opcode := [0xE5], operands := [⟨.imm, .s8, true, .imm, false, .none, .none⟩], opersize := 16, suffixes := some [.w],
      nasm := false },
    { opcode := [0xE5], operands := [⟨.imm, .s8, true, .imm, false, .none, .none⟩], opersize := 32, suffixes := some [.l],
      nasm := false },
    { opcode := [0xEC], operands := [⟨.dreg, .s16, false, .none, false, .none, .none⟩], suffixes := some [.b], nasm := false },
    { opcode := [0xED], operands := [⟨.dreg, .s16, false, .none, false, .none, .none⟩], opersize := 16, suffixes := some [.w],
      nasm := false },
    { opcode := [0xED], operands := [⟨.dreg, .s16, false, .none, false, .none, .none⟩], cpu := [3], opersize := 32,
      suffixes := some [.l], nasm := false } ]

/-- gen_x86_insn.py, `add_group("out", …)` at lines 1661, 1667, 1673, 1679, 1686, 1691, 1697, 1704, 1709, 1715. -/
def out_insn : List RawForm :=
  [ { opcode := [0xE6], operands := [⟨.imm, .s8, true, .imm, false, .none, .none⟩, ⟨.areg, .s8, false, .none, false, .none,
      .none⟩], suffixes := some [.b] },
    { opcode := [0xE7], operands := [⟨.imm, .s8, true, .imm, false, .none, .none⟩, ⟨.areg, .s16, false, .none, false, .none,
      .none⟩], opersize := 16, suffixes := some [.w] },
    { opcode := [0xE7], operands := [⟨.imm, .s8, true, .imm, false, .none, .none⟩, ⟨.areg, .s32, false, .none, false, .none,
      .none⟩], opersize := 32, suffixes := some [.l] },
    { opcode := [0xEE], operands := [⟨.dreg, .s16, false, .none, false, .none, .none⟩, ⟨.areg, .s8, false, .none, false, .none,
      .none⟩], suffixes := some [.b] },
    { opcode := [0xEF], operands := [⟨.dreg, .s16, false, .none, false, .none, .none⟩, ⟨.areg, .s16, false, .none, false, .none,
      .none⟩], opersize := 16, suffixes := some [.w] },
    { opcode := [0xEF], operands := [⟨.dreg, .s16, false, .none, false, .none, .none⟩, ⟨.areg, .s32, false, .none, false, .none,
      .none⟩], opersize := 32, suffixes := some [.l] },
    { opcode := [0xE6], operands := [⟨.imm, .s8, true, .imm, false, .none, .none⟩], suffixes := some [.b], nasm := false },
    { opcode := [0xE7], operands := [⟨.imm, .s8, true, .imm, false, .none, .none⟩], opersize := 16, suffixes := some [.w],
      nasm := false },
    { opcode := [0xE7], operands := [⟨.imm, .s8, true, .imm, false, .none, .none⟩], cpu := [3], opersize := 32,
      suffixes := some [.l], nasm := false },
    { opcode := [0xEE], operands := [⟨.dreg, .s16, false, .none, false, .none, .none⟩], suffixes := some [.b], nasm := false },
    { opcode := [0xEF], operands := [⟨.dreg, .s16, false, .none, false, .none, .none⟩], opersize := 16, suffixes := some [.w],
      nasm := false },
    { opcode := [0xEF], operands := [⟨.dreg, .s16, false, .none, false, .none, .none⟩], cpu := [3], opersize := 32,
      suffixes := some [.l], nasm := false } ]

/-- gen_x86_insn.py, `add_group("lea", …)` at lines 1729. -/
def lea_insn : List RawForm :=
  [ { opcode := [0x8D], operands := [⟨.reg, .s16, false, .spare, false, .none, .none⟩, ⟨.mem, .any, true, .ea, false, .none,
      .none⟩], opersize := 16, suffixes := some [.w] },
    { opcode := [0x8D], operands := [⟨.reg, .s32, false, .spare, false, .none, .none⟩, ⟨.mem, .any, true, .ea, false, .none,
      .none⟩], opersize := 32, suffixes := some [.l] },
    { opcode := [0x8D], operands := [⟨.reg, .s64, false, .spare, false, .none, .none⟩, ⟨.mem, .any, true, .ea, false, .none,
      .none⟩], opersize := 64, suffixes := some [.q] } ]

/-- gen_x86_insn.py, `add_group("ldes", …)` at lines 1742. -/
def ldes_insn : List RawForm :=
  [ { opcode := [0x00], operands := [⟨.reg, .s16, false, .spare, false, .none, .none⟩, ⟨.mem, .any, true, .ea, false, .none,
      .none⟩], modifiers := [.op0Add], opersize := 16, suffixes := some [.w], not64 := true },
    { opcode := [0x00], operands := [⟨.reg, .s32, false, .spare, false, .none, .none⟩, ⟨.mem, .any, true, .ea, false, .none,
      .none⟩], modifiers := [.op0Add], opersize := 32, suffixes := some [.l], not64 := true } ]

/-- gen_x86_insn.py, `add_group("lfgss", …)` at lines 1755. -/
def lfgss_insn : List RawForm :=
  [ { opcode := [0x0F, 0x00], operands := [⟨.reg, .s16, false, .spare, false, .none, .none⟩, ⟨.mem, .any, true, .ea, false,
      .none, .none⟩], modifiers := [.op1Add], cpu := [3], opersize := 16, suffixes := some [.w] },
    { opcode := [0x0F, 0x00], operands := [⟨.reg, .s32, false, .spare, false, .none, .none⟩, ⟨.mem, .any, true, .ea, false,
      .none, .none⟩], modifiers := [.op1Add], cpu := [3], opersize := 32, suffixes := some [.l] },
    { opcode := [0x0F, 0x00], operands := [⟨.reg, .s64, false, .spare, false, .none, .none⟩, ⟨.mem, .any, true, .ea, false,
      .none, .none⟩], modifiers := [.op1Add], cpu := [3], opersize := 64, suffixes := some [.q] } ]

/-- gen_x86_insn.py, `add_group("arith", …)` at lines 1799, 1806, 1816, 1823, 1831, 1839, 1848, 1859, 1869, 1879, 1891, 1899, 1911, 1919. -/
def arith_insn : List RawForm :=
  [ { opcode := [0x04], operands := [⟨.areg, .s8, false, .none, false, .none, .none⟩, ⟨.imm, .s8, true, .imm, false, .none,
      .none⟩], modifiers := [.op0Add], suffixes := some [.b] },
    { opcode := [0x83, 0xC0], opcode2 := [0x05], operands := [⟨.areg, .s16, false, .none, false, .none, .none⟩, ⟨.imm, .s16,
      true, .imm, false, .none, .simm8⟩], modifiers := [.op2Add, .op1AddSp], opersize := 16, suffixes := some [.w] },
    { opcode := [0x83, 0xC0], opcode2 := [0x05], operands := [⟨.areg, .s32, false, .none, false, .none, .none⟩, ⟨.imm, .s32,
      true, .imm, false, .none, .simm8⟩], modifiers := [.op2Add, .op1AddSp], opersize := 32, suffixes := some [.l] },
    { opcode := [0x83, 0xC0], opcode2 := [0x05], operands := [⟨.areg, .s64, false, .none, false, .none, .none⟩, ⟨.imm, .s32,
      true, .imm, false, .none, .simm8⟩], modifiers := [.op2Add, .op1AddSp], opersize := 64, suffixes := some [.q] },
    { opcode := [0x80], operands := [⟨.rm, .s8, false, .ea, false, .none, .none⟩, ⟨.imm, .s8, true, .imm, false, .none, .none⟩],
      modifiers := [.gap, .spAdd], suffixes := some [.b] },
    { opcode := [0x80], operands := [⟨.rm, .s8, true, .ea, false, .none, .none⟩, ⟨.imm, .s8, false, .imm, false, .none, .none⟩],
      modifiers := [.gap, .spAdd], suffixes := some [.b] },
    { opcode := [0x83], operands := [⟨.rm, .s16, false, .ea, false, .none, .none⟩, ⟨.imm, .s8, false, .simm, false, .none,
      .none⟩], modifiers := [.gap, .spAdd], opersize := 16, suffixes := some [.w] },
    { opcode := [0x83], opcode2 := [0x81], operands := [⟨.rm, .s16, true, .ea, false, .none, .none⟩, ⟨.imm, .s16, false, .imm,
      false, .none, .simm8⟩], modifiers := [.gap, .spAdd], opersize := 16, gas := false },
    { opcode := [0x83], opcode2 := [0x81], operands := [⟨.rm, .s16, false, .ea, false, .none, .none⟩, ⟨.imm, .s16, true, .imm,
      false, .none, .simm8⟩], modifiers := [.gap, .spAdd], opersize := 16, suffixes := some [.w] },
    { opcode := [0x83], operands := [⟨.rm, .s32, false, .ea, false, .none, .none⟩, ⟨.imm, .s8, false, .simm, false, .none,
      .none⟩], modifiers := [.gap, .spAdd], opersize := 32, suffixes := some [.l] },
    { opcode := [0x83], opcode2 := [0x81], operands := [⟨.rm, .s32, true, .ea, false, .none, .none⟩, ⟨.imm, .s32, false, .imm,
      false, .none, .simm8⟩], modifiers := [.gap, .spAdd], opersize := 32, not64 := true, gas := false },
    { opcode := [0x83], opcode2 := [0x81], operands := [⟨.rm, .s32, false, .ea, false, .none, .none⟩, ⟨.imm, .s32, true, .imm,
      false, .none, .simm8⟩], modifiers := [.gap, .spAdd], opersize := 32, suffixes := some [.l] },
    { opcode := [0x83], operands := [⟨.rm, .s64, false, .ea, false, .none, .none⟩, ⟨.imm, .s8, false, .simm, false, .none,
      .none⟩], modifiers := [.gap, .spAdd], opersize := 64, suffixes := some [.q] },
    { opcode := [0x83], opcode2 := [0x81], operands := [⟨.rm, .s64, false, .ea, false, .none, .none⟩, ⟨.imm, .s32, true, .imm,
      false, .none, .simm8⟩], modifiers := [.gap, .spAdd], opersize := 64, suffixes := some [.q] },
    { opcode := [0x00], operands := [⟨.rm, .s8, true, .ea, false, .none, .none⟩, ⟨.reg, .s8, false, .spare, false, .none,
      .none⟩], modifiers := [.op0Add], opersize := 8, suffixes := some [.b] },
    { opcode := [0x01], operands := [⟨.rm, .s16, true, .ea, false, .none, .none⟩, ⟨.reg, .s16, false, .spare, false, .none,
      .none⟩], modifiers := [.op0Add], opersize := 16, suffixes := some [.w] },
    { opcode := [0x01], operands := [⟨.rm, .s32, true, .ea, false, .none, .none⟩, ⟨.reg, .s32, false, .spare, false, .none,
      .none⟩], modifiers := [.op0Add], opersize := 32, suffixes := some [.l] },
    { opcode := [0x01], operands := [⟨.rm, .s64, true, .ea, false, .none, .none⟩, ⟨.reg, .s64, false, .spare, false, .none,
      .none⟩], modifiers := [.op0Add], opersize := 64, suffixes := some [.q] },
    { opcode := [0x02], operands := [⟨.reg, .s8, false, .spare, false, .none, .none⟩, ⟨.rm, .s8, true, .ea, false, .none,
      .none⟩], modifiers := [.op0Add], opersize := 8, suffixes := some [.b] },
    { opcode := [0x03], operands := [⟨.reg, .s16, false, .spare, false, .none, .none⟩, ⟨.rm, .s16, true, .ea, false, .none,
      .none⟩], modifiers := [.op0Add], opersize := 16, suffixes := some [.w] },
    { opcode := [0x03], operands := [⟨.reg, .s32, false, .spare, false, .none, .none⟩, ⟨.rm, .s32, true, .ea, false, .none,
      .none⟩], modifiers := [.op0Add], opersize := 32, suffixes := some [.l] },
    { opcode := [0x03], operands := [⟨.reg, .s64, false, .spare, false, .none, .none⟩, ⟨.rm, .s64, true, .ea, false, .none,
      .none⟩], modifiers := [.op0Add], opersize := 64, suffixes := some [.q] } ]

/-- gen_x86_insn.py, `add_group("incdec", …)` at lines 1939, 1946, 1953, 1960. -/
def incdec_insn : List RawForm :=
  [ { opcode := [0xFE], operands := [⟨.rm, .s8, false, .ea, false, .none, .none⟩], modifiers := [.gap, .spAdd],
      suffixes := some [.b] },
    { opcode := [0x00], operands := [⟨.reg, .s16, false, .op0Add, false, .none, .none⟩], modifiers := [.op0Add], opersize := 16,
      suffixes := some [.w], not64 := true },
    { opcode := [0xFF], operands := [⟨.rm, .s16, false, .ea, false, .none, .none⟩], modifiers := [.gap, .spAdd], opersize := 16,
      suffixes := some [.w] },
    { opcode := [0x00], operands := [⟨.reg, .s32, false, .op0Add, false, .none, .none⟩], modifiers := [.op0Add], opersize := 32,
      suffixes := some [.l], not64 := true },
    { opcode := [0xFF], operands := [⟨.rm, .s32, false, .ea, false, .none, .none⟩], modifiers := [.gap, .spAdd], opersize := 32,
      suffixes := some [.l] },
    { opcode := [0xFF], operands := [⟨.rm, .s64, false, .ea, false, .none, .none⟩], modifiers := [.gap, .spAdd], opersize := 64,
      suffixes := some [.q] } ]

/-- gen_x86_insn.py, `add_group("f6", …)` at lines 1975. -/
def f6_insn : List RawForm :=
  [ { opcode := [0xF6], operands := [⟨.rm, .s8, false, .ea, false, .none, .none⟩], modifiers := [.spAdd], opersize := 8,
      suffixes := some [.b] },
    { opcode := [0xF7], operands := [⟨.rm, .s16, false, .ea, false, .none, .none⟩], modifiers := [.spAdd], opersize := 16,
      suffixes := some [.w] },
    { opcode := [0xF7], operands := [⟨.rm, .s32, false, .ea, false, .none, .none⟩], modifiers := [.spAdd], opersize := 32,
      suffixes := some [.l] },
    { opcode := [0xF7], operands := [⟨.rm, .s64, false, .ea, false, .none, .none⟩], modifiers := [.spAdd], opersize := 64,
      suffixes := some [.q] } ]

/-- gen_x86_insn.py, `add_group("div", …)` at lines 1992, 2001. -/
def div_insn : List RawForm :=
  [ { opcode := [0xF6], operands := [⟨.rm, .s8, false, .ea, false, .none, .none⟩], modifiers := [.spAdd], opersize := 8,
      suffixes := some [.b] },
    { opcode := [0xF7], operands := [⟨.rm, .s16, false, .ea, false, .none, .none⟩], modifiers := [.spAdd], opersize := 16,
      suffixes := some [.w] },
    { opcode := [0xF7], operands := [⟨.rm, .s32, false, .ea, false, .none, .none⟩], modifiers := [.spAdd], opersize := 32,
      suffixes := some [.l] },
    { opcode := [0xF7], operands := [⟨.rm, .s64, false, .ea, false, .none, .none⟩], modifiers := [.spAdd], opersize := 64,
      suffixes := some [.q] },
    { opcode := [0xF6], operands := [⟨.areg, .s8, false, .none, false, .none, .none⟩, ⟨.rm, .s8, false, .ea, false, .none,
      .none⟩], modifiers := [.spAdd], opersize := 8, suffixes := some [.b] },
    { opcode := [0xF7], operands := [⟨.areg, .s16, false, .none, false, .none, .none⟩, ⟨.rm, .s16, false, .ea, false, .none,
      .none⟩], modifiers := [.spAdd], opersize := 16, suffixes := some [.w] },
    { opcode := [0xF7], operands := [⟨.areg, .s32, false, .none, false, .none, .none⟩, ⟨.rm, .s32, false, .ea, false, .none,
      .none⟩], modifiers := [.spAdd], opersize := 32, suffixes := some [.l] },
    { opcode := [0xF7], operands := [⟨.areg, .s64, false, .none, false, .none, .none⟩, ⟨.rm, .s64, false, .ea, false, .none,
      .none⟩], modifiers := [.spAdd], opersize := 64, suffixes := some [.q] } ]

/-- gen_x86_insn.py, `add_group("test", …)` at lines 2017, 2025, 2031, 2039, 2046. -/
def test_insn : List RawForm :=
  [ { opcode := [0xA8], operands := [⟨.areg, .s8, false, .none, false, .none, .none⟩, ⟨.imm, .s8, true, .imm, false, .none,
      .none⟩], opersize := 8, suffixes := some [.b] },
    { opcode := [0xA9], operands := [⟨.areg, .s16, false, .none, false, .none, .none⟩, ⟨.imm, .s16, true, .imm, false, .none,
      .none⟩], opersize := 16, suffixes := some [.w] },
    { opcode := [0xA9], operands := [⟨.areg, .s32, false, .none, false, .none, .none⟩, ⟨.imm, .s32, true, .imm, false, .none,
      .none⟩], opersize := 32, suffixes := some [.l] },
    { opcode := [0xA9], operands := [⟨.areg, .s64, false, .none, false, .none, .none⟩, ⟨.imm, .s32, true, .imm, false, .none,
      .none⟩], opersize := 64, suffixes := some [.q] },
    { opcode := [0xF6], operands := [⟨.rm, .s8, false, .ea, false, .none, .none⟩, ⟨.imm, .s8, true, .imm, false, .none, .none⟩],
      opersize := 8, suffixes := some [.b] },
    { opcode := [0xF6], operands := [⟨.rm, .s8, true, .ea, false, .none, .none⟩, ⟨.imm, .s8, false, .imm, false, .none, .none⟩],
      opersize := 8, suffixes := some [.b] },
    { opcode := [0xF7], operands := [⟨.rm, .s16, false, .ea, false, .none, .none⟩, ⟨.imm, .s16, true, .imm, false, .none,
      .none⟩], opersize := 16, suffixes := some [.w] },
    { opcode := [0xF7], operands := [⟨.rm, .s16, true, .ea, false, .none, .none⟩, ⟨.imm, .s16, false, .imm, false, .none,
      .none⟩], opersize := 16, suffixes := some [.w] },
    { opcode := [0xF7], operands := [⟨.rm, .s32, false, .ea, false, .none, .none⟩, ⟨.imm, .s32, true, .imm, false, .none,
      .none⟩], opersize := 32, suffixes := some [.l] },
    { opcode := [0xF7], operands := [⟨.rm, .s32, true, .ea, false, .none, .none⟩, ⟨.imm, .s32, false, .imm, false, .none,
      .none⟩], opersize := 32, suffixes := some [.l] },
    { opcode := [0xF7], operands := [⟨.rm, .s64, false, .ea, false, .none, .none⟩, ⟨.imm, .s32, true, .imm, false, .none,
      .none⟩], opersize := 64, suffixes := some [.q] },
    { opcode := [0xF7], operands := [⟨.rm, .s64, true, .ea, false, .none, .none⟩, ⟨.imm, .s32, false, .imm, false, .none,
      .none⟩], opersize := 64, suffixes := some [.q] },
    { opcode := [0x84], operands := [⟨.rm, .s8, true, .ea, false, .none, .none⟩, ⟨.reg, .s8, false, .spare, false, .none,
      .none⟩], opersize := 8, suffixes := some [.b] },
    { opcode := [0x85], operands := [⟨.rm, .s16, true, .ea, false, .none, .none⟩, ⟨.reg, .s16, false, .spare, false, .none,
      .none⟩], opersize := 16, suffixes := some [.w] },
    { opcode := [0x85], operands := [⟨.rm, .s32, true, .ea, false, .none, .none⟩, ⟨.reg, .s32, false, .spare, false, .none,
      .none⟩], opersize := 32, suffixes := some [.l] },
    { opcode := [0x85], operands := [⟨.rm, .s64, true, .ea, false, .none, .none⟩, ⟨.reg, .s64, false, .spare, false, .none,
      .none⟩], opersize := 64, suffixes := some [.q] },
    { opcode := [0x84], operands := [⟨.reg, .s8, false, .spare, false, .none, .none⟩, ⟨.rm, .s8, true, .ea, false, .none,
      .none⟩], opersize := 8, suffixes := some [.b] },
    { opcode := [0x85], operands := [⟨.reg, .s16, false, .spare, false, .none, .none⟩, ⟨.rm, .s16, true, .ea, false, .none,
      .none⟩], opersize := 16, suffixes := some [.w] },
    { opcode := [0x85], operands := [⟨.reg, .s32, false, .spare, false, .none, .none⟩, ⟨.rm, .s32, true, .ea, false, .none,
      .none⟩], opersize := 32, suffixes := some [.l] },
    { opcode := [0x85], operands := [⟨.reg, .s64, false, .spare, false, .none, .none⟩, ⟨.rm, .s64, true, .ea, false, .none,
      .none⟩], opersize := 64, suffixes := some [.q] } ]

/-- The groups of this file. -/
def groups1 : List (List RawForm) :=
  [pop_insn, xchg_insn, in_insn, out_insn, lea_insn, ldes_insn, lfgss_insn, arith_insn, incdec_insn, f6_insn, div_insn,
    test_insn]

end Verif.Match
