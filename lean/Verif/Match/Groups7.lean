/-
The table of modules/arch/x86/gen_x86_insn.py: the calls of `add_group`, with its loops written out.  Made by reading the syntax tree
of the script; nothing but literals and the arithmetic on them is evaluated.
-/
import Verif.Match.Gen

namespace Verif.Match

/-- gen_x86_insn.py, `add_group("insertq", …)` at lines 7503, 7511. -/
def insertq_insn : List RawForm :=
  [ { opcode := [0x0F, 0x78], operands := [⟨.simdReg, .s128, false, .spare, false, .none, .none⟩, ⟨.simdReg, .s128, false, .ea,
      false, .none, .none⟩, ⟨.imm, .s8, true, .ea, false, .none, .none⟩, ⟨.imm, .s8, true, .imm, false, .none, .none⟩],
      cpu := [32], pfx := 0xF2 },
    { opcode := [0x0F, 0x79], operands := [⟨.simdReg, .s128, false, .spare, false, .none, .none⟩, ⟨.simdReg, .s128, false, .ea,
      false, .none, .none⟩], cpu := [32], pfx := 0xF2 } ]

/-- gen_x86_insn.py, `add_group("movntsd", …)` at lines 7520. -/
def movntsd_insn : List RawForm :=
  [ { opcode := [0x0F, 0x2B], operands := [⟨.mem, .s64, true, .ea, false, .none, .none⟩, ⟨.simdReg, .s128, false, .spare, false,
      .none, .none⟩], cpu := [32], pfx := 0xF2 } ]

/-- gen_x86_insn.py, `add_group("movntss", …)` at lines 7529. -/
def movntss_insn : List RawForm :=
  [ { opcode := [0x0F, 0x2B], operands := [⟨.mem, .s32, true, .ea, false, .none, .none⟩, ⟨.simdReg, .s128, false, .spare, false,
      .none, .none⟩], cpu := [32], pfx := 0xF3 } ]

/-- gen_x86_insn.py, `add_group("vfrc_pdps", …)` at lines 7542, 7549. -/
def vfrc_pdps_insn : List RawForm :=
  [ { opcode := [0x09, 0x80], operands := [⟨.simdReg, .s128, false, .spare, false, .none, .none⟩, ⟨.simdRM, .s128, true, .ea,
      false, .none, .none⟩], modifiers := [.op1Add], cpu := [39], xop := some 128 },
    { opcode := [0x09, 0x80], operands := [⟨.simdReg, .s256, false, .spare, false, .none, .none⟩, ⟨.simdRM, .s256, true, .ea,
      false, .none, .none⟩], modifiers := [.op1Add], cpu := [39], xop := some 256 } ]

/-- gen_x86_insn.py, `add_group("vfrczsd", …)` at lines 7559, 7565. -/
def vfrczsd_insn : List RawForm :=
  [ { opcode := [0x09, 0x83], operands := [⟨.simdReg, .s128, false, .spare, false, .none, .none⟩, ⟨.simdReg, .s128, false, .ea,
      false, .none, .none⟩], cpu := [39], xop := some 128 },
    { opcode := [0x09, 0x83], operands := [⟨.simdReg, .s128, false, .spare, false, .none, .none⟩, ⟨.mem, .s64, true, .ea, false,
      .none, .none⟩], cpu := [39], xop := some 128 } ]

/-- gen_x86_insn.py, `add_group("vfrczss", …)` at lines 7573, 7579. -/
def vfrczss_insn : List RawForm :=
  [ { opcode := [0x09, 0x82], operands := [⟨.simdReg, .s128, false, .spare, false, .none, .none⟩, ⟨.simdReg, .s128, false, .ea,
      false, .none, .none⟩], cpu := [39], xop := some 128 },
    { opcode := [0x09, 0x82], operands := [⟨.simdReg, .s128, false, .spare, false, .none, .none⟩, ⟨.mem, .s32, true, .ea, false,
      .none, .none⟩], cpu := [39], xop := some 128 } ]

/-- gen_x86_insn.py, `add_group("vpcmov", …)` at lines 7587, 7596, 7605, 7614. -/
def vpcmov_insn : List RawForm :=
  [ { opcode := [0x08, 0xA2], operands := [⟨.simdReg, .s128, false, .spare, false, .none, .none⟩, ⟨.simdReg, .s128, false, .vex,
      false, .none, .none⟩, ⟨.simdRM, .s128, true, .ea, false, .none, .none⟩, ⟨.simdReg, .s128, false, .vexImmSrc, false, .none,
      .none⟩], cpu := [39], xop := some 128 },
    { opcode := [0x08, 0xA2], operands := [⟨.simdReg, .s128, false, .spare, false, .none, .none⟩, ⟨.simdReg, .s128, false, .vex,
      false, .none, .none⟩, ⟨.simdReg, .s128, false, .vexImmSrc, false, .none, .none⟩, ⟨.simdRM, .s128, true, .ea, false, .none,
      .none⟩], cpu := [39], xopw := 1, xop := some 128 },
    { opcode := [0x08, 0xA2], operands := [⟨.simdReg, .s256, false, .spare, false, .none, .none⟩, ⟨.simdReg, .s256, false, .vex,
      false, .none, .none⟩, ⟨.simdRM, .s256, true, .ea, false, .none, .none⟩, ⟨.simdReg, .s256, false, .vexImmSrc, false, .none,
      .none⟩], cpu := [39], xop := some 256 },
    { opcode := [0x08, 0xA2], operands := [⟨.simdReg, .s256, false, .spare, false, .none, .none⟩, ⟨.simdReg, .s256, false, .vex,
      false, .none, .none⟩, ⟨.simdReg, .s256, false, .vexImmSrc, false, .none, .none⟩, ⟨.simdRM, .s256, true, .ea, false, .none,
      .none⟩], cpu := [39], xopw := 1, xop := some 256 } ]

/-- gen_x86_insn.py, `add_group("vpcom", …)` at lines 7626. -/
def vpcom_insn : List RawForm :=
  [ { opcode := [0x08, 0x00], operands := [⟨.simdReg, .s128, false, .spare, false, .none, .none⟩, ⟨.simdReg, .s128, false, .vex,
      false, .none, .none⟩, ⟨.simdRM, .s128, true, .ea, false, .none, .none⟩], modifiers := [.op1Add, .imm8], cpu := [39],
      xop := some 128 } ]

/-- gen_x86_insn.py, `add_group("vpcom_imm", …)` at lines 7634. -/
def vpcom_imm_insn : List RawForm :=
  [ { opcode := [0x08, 0x00], operands := [⟨.simdReg, .s128, false, .spare, false, .none, .none⟩, ⟨.simdReg, .s128, false, .vex,
      false, .none, .none⟩, ⟨.simdRM, .s128, true, .ea, false, .none, .none⟩, ⟨.imm, .s8, true, .imm, false, .none, .none⟩],
      modifiers := [.op1Add], cpu := [39], xop := some 128 } ]

/-- gen_x86_insn.py, `add_group("vphaddsub", …)` at lines 7659. -/
def vphaddsub_insn : List RawForm :=
  [ { opcode := [0x09, 0x00], operands := [⟨.simdReg, .s128, false, .spare, false, .none, .none⟩, ⟨.simdRM, .s128, true, .ea,
      false, .none, .none⟩], modifiers := [.op1Add], cpu := [39], xop := some 128 } ]

/-- gen_x86_insn.py, `add_group("vpma", …)` at lines 7685. -/
def vpma_insn : List RawForm :=
  [ { opcode := [0x08, 0x00], operands := [⟨.simdReg, .s128, false, .spare, false, .none, .none⟩, ⟨.simdReg, .s128, false, .vex,
      false, .none, .none⟩, ⟨.simdRM, .s128, true, .ea, false, .none, .none⟩, ⟨.simdReg, .s128, false, .vexImmSrc, false, .none,
      .none⟩], modifiers := [.op1Add], cpu := [39], xop := some 128 } ]

/-- gen_x86_insn.py, `add_group("vpperm", …)` at lines 7708, 7717. -/
def vpperm_insn : List RawForm :=
  [ { opcode := [0x08, 0xA3], operands := [⟨.simdReg, .s128, false, .spare, false, .none, .none⟩, ⟨.simdReg, .s128, false, .vex,
      false, .none, .none⟩, ⟨.simdRM, .s128, true, .ea, false, .none, .none⟩, ⟨.simdReg, .s128, false, .vexImmSrc, false, .none,
      .none⟩], cpu := [39], xop := some 128 },
    { opcode := [0x08, 0xA3], operands := [⟨.simdReg, .s128, false, .spare, false, .none, .none⟩, ⟨.simdReg, .s128, false, .vex,
      false, .none, .none⟩, ⟨.simdReg, .s128, false, .vexImmSrc, false, .none, .none⟩, ⟨.simdRM, .s128, true, .ea, false, .none,
      .none⟩], cpu := [39], xopw := 1, xop := some 128 } ]

/-- gen_x86_insn.py, `add_group("vprot", …)` at lines 7728, 7737, 7746. -/
def vprot_insn : List RawForm :=
  [ { opcode := [0x09, 0x90], operands := [⟨.simdReg, .s128, false, .spare, false, .none, .none⟩, ⟨.simdRM, .s128, true, .ea,
      false, .none, .none⟩, ⟨.simdReg, .s128, false, .vex, false, .none, .none⟩], modifiers := [.op1Add], cpu := [39],
      xop := some 128 },
    { opcode := [0x09, 0x90], operands := [⟨.simdReg, .s128, false, .spare, false, .none, .none⟩, ⟨.simdReg, .s128, false, .vex,
      false, .none, .none⟩, ⟨.simdRM, .s128, true, .ea, false, .none, .none⟩], modifiers := [.op1Add], cpu := [39], xopw := 1,
      xop := some 128 },
    { opcode := [0x08, 0xC0], operands := [⟨.simdReg, .s128, false, .spare, false, .none, .none⟩, ⟨.simdRM, .s128, true, .ea,
      false, .none, .none⟩, ⟨.imm, .s8, true, .imm, false, .none, .none⟩], modifiers := [.op1Add], cpu := [39],
      xop := some 128 } ]

/-- gen_x86_insn.py, `add_group("amd_vpshift", …)` at lines 7757, 7766. -/
def amd_vpshift_insn : List RawForm :=
  [ { opcode := [0x09, 0x00], operands := [⟨.simdReg, .s128, false, .spare, false, .none, .none⟩, ⟨.simdRM, .s128, true, .ea,
      false, .none, .none⟩, ⟨.simdReg, .s128, false, .vex, false, .none, .none⟩], modifiers := [.op1Add], cpu := [39],
      xop := some 128 },
    { opcode := [0x09, 0x00], operands := [⟨.simdReg, .s128, false, .spare, false, .none, .none⟩, ⟨.simdReg, .s128, false, .vex,
      false, .none, .none⟩, ⟨.simdRM, .s128, true, .ea, false, .none, .none⟩], modifiers := [.op1Add], cpu := [39], xopw := 1,
      xop := some 128 } ]

/-- gen_x86_insn.py, `add_group("fma_128_256", …)` at lines 7783, 7794, 7805, 7816. -/
def fma_128_256_insn : List RawForm :=
  [ { opcode := [0x0F, 0x3A, 0x00], operands := [⟨.simdReg, .s128, false, .spare, false, .none, .none⟩, ⟨.simdReg, .s128, false,
      .vex, false, .none, .none⟩, ⟨.simdRM, .s128, true, .ea, false, .none, .none⟩, ⟨.simdReg, .s128, false, .vexImmSrc, false,
      .none, .none⟩], modifiers := [.op2Add], cpu := [40], pfx := 0x66, vex := some 128 },
    { opcode := [0x0F, 0x3A, 0x00], operands := [⟨.simdReg, .s128, false, .spare, false, .none, .none⟩, ⟨.simdReg, .s128, false,
      .vex, false, .none, .none⟩, ⟨.simdReg, .s128, false, .vexImmSrc, false, .none, .none⟩, ⟨.simdRM, .s128, true, .ea, false,
      .none, .none⟩], modifiers := [.op2Add], cpu := [40], vexw := 1, pfx := 0x66, vex := some 128 },
    { opcode := [0x0F, 0x3A, 0x00], operands := [⟨.simdReg, .s256, false, .spare, false, .none, .none⟩, ⟨.simdReg, .s256, false,
      .vex, false, .none, .none⟩, ⟨.simdRM, .s256, true, .ea, false, .none, .none⟩, ⟨.simdReg, .s256, false, .vexImmSrc, false,
      .none, .none⟩], modifiers := [.op2Add], cpu := [40], pfx := 0x66, vex := some 256 },
    { opcode := [0x0F, 0x3A, 0x00], operands := [⟨.simdReg, .s256, false, .spare, false, .none, .none⟩, ⟨.simdReg, .s256, false,
      .vex, false, .none, .none⟩, ⟨.simdReg, .s256, false, .vexImmSrc, false, .none, .none⟩, ⟨.simdRM, .s256, true, .ea, false,
      .none, .none⟩], modifiers := [.op2Add], cpu := [40], vexw := 1, pfx := 0x66, vex := some 256 } ]

/-- gen_x86_insn.py, `add_group("fma_128_m32", …)` at lines 7842, 7853, 7864. -/
def fma_128_m32_insn : List RawForm :=
  [ { opcode := [0x0F, 0x3A, 0x00], operands := [⟨.simdReg, .s128, false, .spare, false, .none, .none⟩, ⟨.simdReg, .s128, false,
      .vex, false, .none, .none⟩, ⟨.simdReg, .s128, false, .ea, false, .none, .none⟩, ⟨.simdReg, .s128, false, .vexImmSrc,
      false, .none, .none⟩], modifiers := [.op2Add], cpu := [40], pfx := 0x66, vex := some 128 },
    { opcode := [0x0F, 0x3A, 0x00], operands := [⟨.simdReg, .s128, false, .spare, false, .none, .none⟩, ⟨.simdReg, .s128, false,
      .vex, false, .none, .none⟩, ⟨.mem, .s32, true, .ea, false, .none, .none⟩, ⟨.simdReg, .s128, false, .vexImmSrc, false,
      .none, .none⟩], modifiers := [.op2Add], cpu := [40], pfx := 0x66, vex := some 128 },
    { opcode := [0x0F, 0x3A, 0x00], operands := [⟨.simdReg, .s128, false, .spare, false, .none, .none⟩, ⟨.simdReg, .s128, false,
      .vex, false, .none, .none⟩, ⟨.simdReg, .s128, false, .vexImmSrc, false, .none, .none⟩, ⟨.mem, .s32, true, .ea, false,
      .none, .none⟩], modifiers := [.op2Add], cpu := [40], vexw := 1, pfx := 0x66, vex := some 128 } ]

/-- gen_x86_insn.py, `add_group("fma_128_m64", …)` at lines 7842, 7853, 7864. -/
def fma_128_m64_insn : List RawForm :=
  [ { opcode := [0x0F, 0x3A, 0x00], operands := [⟨.simdReg, .s128, false, .spare, false, .none, .none⟩, ⟨.simdReg, .s128, false,
      .vex, false, .none, .none⟩, ⟨.simdReg, .s128, false, .ea, false, .none, .none⟩, ⟨.simdReg, .s128, false, .vexImmSrc,
      false, .none, .none⟩], modifiers := [.op2Add], cpu := [40], pfx := 0x66, vex := some 128 },
    { opcode := [0x0F, 0x3A, 0x00], operands := [⟨.simdReg, .s128, false, .spare, false, .none, .none⟩, ⟨.simdReg, .s128, false,
      .vex, false, .none, .none⟩, ⟨.mem, .s64, true, .ea, false, .none, .none⟩, ⟨.simdReg, .s128, false, .vexImmSrc, false,
      .none, .none⟩], modifiers := [.op2Add], cpu := [40], pfx := 0x66, vex := some 128 },
    { opcode := [0x0F, 0x3A, 0x00], operands := [⟨.simdReg, .s128, false, .spare, false, .none, .none⟩, ⟨.simdReg, .s128, false,
      .vex, false, .none, .none⟩, ⟨.simdReg, .s128, false, .vexImmSrc, false, .none, .none⟩, ⟨.mem, .s64, true, .ea, false,
      .none, .none⟩], modifiers := [.op2Add], cpu := [40], vexw := 1, pfx := 0x66, vex := some 128 } ]

/-- gen_x86_insn.py, `add_group("xsaveopt64", …)` at lines 7900. -/
def xsaveopt64_insn : List RawForm :=
  [ { opcode := [0x00, 0x00], operands := [⟨.mem, .any, true, .ea, false, .none, .none⟩], modifiers := [.spAdd, .op0Add,
      .op1Add], opersize := 64 } ]

/-- gen_x86_insn.py, `add_group("movbe", …)` at lines 7913, 7920. -/
def movbe_insn : List RawForm :=
  [ { opcode := [0x0F, 0x38, 0xF0], operands := [⟨.reg, .s16, false, .spare, false, .none, .none⟩, ⟨.mem, .s16, true, .ea,
      false, .none, .none⟩], cpu := [38], opersize := 16, suffixes := some [.w] },
    { opcode := [0x0F, 0x38, 0xF1], operands := [⟨.mem, .s16, true, .ea, false, .none, .none⟩, ⟨.reg, .s16, false, .spare,
      false, .none, .none⟩], cpu := [38], opersize := 16, suffixes := some [.w] },
    { opcode := [0x0F, 0x38, 0xF0], operands := [⟨.reg, .s32, false, .spare, false, .none, .none⟩, ⟨.mem, .s32, true, .ea,
      false, .none, .none⟩], cpu := [38], opersize := 32, suffixes := some [.l] },
    { opcode := [0x0F, 0x38, 0xF1], operands := [⟨.mem, .s32, true, .ea, false, .none, .none⟩, ⟨.reg, .s32, false, .spare,
      false, .none, .none⟩], cpu := [38], opersize := 32, suffixes := some [.l] },
    { opcode := [0x0F, 0x38, 0xF0], operands := [⟨.reg, .s64, false, .spare, false, .none, .none⟩, ⟨.mem, .s64, true, .ea,
      false, .none, .none⟩], cpu := [38], opersize := 64, suffixes := some [.q] },
    { opcode := [0x0F, 0x38, 0xF1], operands := [⟨.mem, .s64, true, .ea, false, .none, .none⟩, ⟨.reg, .s64, false, .spare,
      false, .none, .none⟩], cpu := [38], opersize := 64, suffixes := some [.q] } ]

/-- gen_x86_insn.py, `add_group("vex_gpr_ndd_rm_0F38_regext", …)` at lines 7937. -/
def vex_gpr_ndd_rm_0F38_regext_insn : List RawForm :=
  [ { opcode := [0x0F, 0x38, 0x00], operands := [⟨.reg, .s32, false, .vex, false, .none, .none⟩, ⟨.rm, .s32, true, .ea, false,
      .none, .none⟩], modifiers := [.preAdd, .op2Add, .spAdd], opersize := 32, vex := some 0, suffixes := some [.l] },
    { opcode := [0x0F, 0x38, 0x00], operands := [⟨.reg, .s64, false, .vex, false, .none, .none⟩, ⟨.rm, .s64, true, .ea, false,
      .none, .none⟩], modifiers := [.preAdd, .op2Add, .spAdd], opersize := 64, vex := some 0, suffixes := some [.q] } ]

/-- gen_x86_insn.py, `add_group("vex_gpr_reg_rm_0F_imm8", …)` at lines 7956. -/
def vex_gpr_reg_rm_0F_imm8_insn : List RawForm :=
  [ { opcode := [0x0F, 0x00, 0x00], operands := [⟨.reg, .s32, false, .spare, false, .none, .none⟩, ⟨.rm, .s32, true, .ea, false,
      .none, .none⟩, ⟨.imm, .s8, true, .imm, false, .none, .none⟩], modifiers := [.preAdd, .op1Add, .op2Add], opersize := 32,
      vex := some 0, suffixes := some [.l] },
    { opcode := [0x0F, 0x00, 0x00], operands := [⟨.reg, .s64, false, .spare, false, .none, .none⟩, ⟨.rm, .s64, true, .ea, false,
      .none, .none⟩, ⟨.imm, .s8, true, .imm, false, .none, .none⟩], modifiers := [.preAdd, .op1Add, .op2Add], opersize := 64,
      vex := some 0, suffixes := some [.q] } ]

/-- gen_x86_insn.py, `add_group("vex_gpr_reg_nds_rm_0F", …)` at lines 7971. -/
def vex_gpr_reg_nds_rm_0F_insn : List RawForm :=
  [ { opcode := [0x0F, 0x00, 0x00], operands := [⟨.reg, .s32, false, .spare, false, .none, .none⟩, ⟨.reg, .s32, false, .vex,
      false, .none, .none⟩, ⟨.rm, .s32, true, .ea, false, .none, .none⟩], modifiers := [.preAdd, .op1Add, .op2Add],
      opersize := 32, vex := some 0, suffixes := some [.l] },
    { opcode := [0x0F, 0x00, 0x00], operands := [⟨.reg, .s64, false, .spare, false, .none, .none⟩, ⟨.reg, .s64, false, .vex,
      false, .none, .none⟩, ⟨.rm, .s64, true, .ea, false, .none, .none⟩], modifiers := [.preAdd, .op1Add, .op2Add],
      opersize := 64, vex := some 0, suffixes := some [.q] } ]

/-- gen_x86_insn.py, `add_group("vex_gpr_reg_rm_nds_0F", …)` at lines 7991. -/
def vex_gpr_reg_rm_nds_0F_insn : List RawForm :=
  [ { opcode := [0x0F, 0x00, 0x00], operands := [⟨.reg, .s32, false, .spare, false, .none, .none⟩, ⟨.rm, .s32, true, .ea, false,
      .none, .none⟩, ⟨.reg, .s32, false, .vex, false, .none, .none⟩], modifiers := [.preAdd, .op1Add, .op2Add], opersize := 32,
      vex := some 0, suffixes := some [.l] },
    { opcode := [0x0F, 0x00, 0x00], operands := [⟨.reg, .s64, false, .spare, false, .none, .none⟩, ⟨.rm, .s64, true, .ea, false,
      .none, .none⟩, ⟨.reg, .s64, false, .vex, false, .none, .none⟩], modifiers := [.preAdd, .op1Add, .op2Add], opersize := 64,
      vex := some 0, suffixes := some [.q] } ]

/-- gen_x86_insn.py, `add_group("bextr", …)` at lines 8015, 8025. -/
def bextr_insn : List RawForm :=
  [ { opcode := [0x0F, 0x38, 0xF7], operands := [⟨.reg, .s32, false, .spare, false, .none, .none⟩, ⟨.rm, .s32, true, .ea, false,
      .none, .none⟩, ⟨.reg, .s32, false, .vex, false, .none, .none⟩], cpu := [48], opersize := 32, vex := some 0,
      suffixes := some [.l] },
    { opcode := [0x0A, 0x10], operands := [⟨.reg, .s32, false, .spare, false, .none, .none⟩, ⟨.rm, .s32, true, .ea, false,
      .none, .none⟩, ⟨.imm, .s32, true, .imm, false, .none, .none⟩], cpu := [52], opersize := 32, xop := some 128,
      suffixes := some [.l], onlyavx := true },
    { opcode := [0x0F, 0x38, 0xF7], operands := [⟨.reg, .s64, false, .spare, false, .none, .none⟩, ⟨.rm, .s64, true, .ea, false,
      .none, .none⟩, ⟨.reg, .s64, false, .vex, false, .none, .none⟩], cpu := [48], opersize := 64, vex := some 0,
      suffixes := some [.q] },
    { opcode := [0x0A, 0x10], operands := [⟨.reg, .s64, false, .spare, false, .none, .none⟩, ⟨.rm, .s64, true, .ea, false,
      .none, .none⟩, ⟨.imm, .s32, true, .imm, false, .none, .none⟩], cpu := [52], opersize := 64, xopw := 1, xop := some 128,
      suffixes := some [.q], onlyavx := true } ]

/-- gen_x86_insn.py, `add_group("invpcid", …)` at lines 8043, 8050. -/
def invpcid_insn : List RawForm :=
  [ { opcode := [0x0F, 0x38, 0x82], operands := [⟨.reg, .s32, false, .spare, false, .none, .none⟩, ⟨.mem, .s128, true, .ea,
      false, .none, .none⟩], cpu := [50, 25], pfx := 0x66, not64 := true },
    { opcode := [0x0F, 0x38, 0x82], operands := [⟨.reg, .s64, false, .spare, false, .none, .none⟩, ⟨.mem, .s128, true, .ea,
      false, .none, .none⟩], cpu := [50, 25], def64 := 64, pfx := 0x66, only64 := true } ]

/-- gen_x86_insn.py, `add_group("intel_SHA1MSG1", …)` at lines 8064. -/
def intel_SHA1MSG1_insn : List RawForm :=
  [ { opcode := [0x0F, 0x38, 0xC9], operands := [⟨.simdReg, .s128, false, .spare, false, .none, .none⟩, ⟨.simdRM, .s128, true,
      .ea, false, .none, .none⟩], cpu := [54] } ]

/-- gen_x86_insn.py, `add_group("intel_SHA1MSG2", …)` at lines 8069. -/
def intel_SHA1MSG2_insn : List RawForm :=
  [ { opcode := [0x0F, 0x38, 0xCA], operands := [⟨.simdReg, .s128, false, .spare, false, .none, .none⟩, ⟨.simdRM, .s128, true,
      .ea, false, .none, .none⟩], cpu := [54] } ]

/-- gen_x86_insn.py, `add_group("intel_SHA1NEXTE", …)` at lines 8074. -/
def intel_SHA1NEXTE_insn : List RawForm :=
  [ { opcode := [0x0F, 0x38, 0xC8], operands := [⟨.simdReg, .s128, false, .spare, false, .none, .none⟩, ⟨.simdRM, .s128, true,
      .ea, false, .none, .none⟩], cpu := [54] } ]

/-- gen_x86_insn.py, `add_group("intel_SHA1RNDS4", …)` at lines 8079. -/
def intel_SHA1RNDS4_insn : List RawForm :=
  [ { opcode := [0x0F, 0x3A, 0xCC], operands := [⟨.simdReg, .s128, false, .spare, false, .none, .none⟩, ⟨.simdRM, .s128, true,
      .ea, false, .none, .none⟩, ⟨.imm, .s8, true, .imm, false, .none, .none⟩], cpu := [54] } ]

/-- gen_x86_insn.py, `add_group("intel_SHA256MSG1", …)` at lines 8085. -/
def intel_SHA256MSG1_insn : List RawForm :=
  [ { opcode := [0x0F, 0x38, 0xCC], operands := [⟨.simdReg, .s128, false, .spare, false, .none, .none⟩, ⟨.simdRM, .s128, true,
      .ea, false, .none, .none⟩], cpu := [54] } ]

/-- gen_x86_insn.py, `add_group("intel_SHA256MSG2", …)` at lines 8090. -/
def intel_SHA256MSG2_insn : List RawForm :=
  [ { opcode := [0x0F, 0x38, 0xCD], operands := [⟨.simdReg, .s128, false, .spare, false, .none, .none⟩, ⟨.simdRM, .s128, true,
      .ea, false, .none, .none⟩], cpu := [54] } ]

/-- gen_x86_insn.py, `add_group("intel_SHA256RNDS2", …)` at lines 8095. -/
def intel_SHA256RNDS2_insn : List RawForm :=
  [ { opcode := [0x0F, 0x38, 0xCB], operands := [⟨.simdReg, .s128, false, .spare, false, .none, .none⟩, ⟨.simdRM, .s128, false,
      .ea, false, .none, .none⟩], cpu := [54] } ]

/-- gen_x86_insn.py, `add_group("vex_gpr_ndd_rm_0F38", …)` at lines 8119. -/
def vex_gpr_ndd_rm_0F38_insn : List RawForm :=
  [ { opcode := [0x0F, 0x38, 0x00], operands := [⟨.reg, .s32, false, .spare, false, .none, .none⟩, ⟨.rm, .s32, true, .ea, false,
      .none, .none⟩], modifiers := [.preAdd, .op2Add], opersize := 32, suffixes := some [.l] },
    { opcode := [0x0F, 0x38, 0x00], operands := [⟨.reg, .s64, false, .spare, false, .none, .none⟩, ⟨.rm, .s64, true, .ea, false,
      .none, .none⟩], modifiers := [.preAdd, .op2Add], opersize := 64, suffixes := some [.q] } ]

/-- gen_x86_insn.py, `add_group("xop_gpr_reg_rm_09", …)` at lines 8137. -/
def xop_gpr_reg_rm_09_insn : List RawForm :=
  [ { opcode := [0x09, 0x00], operands := [⟨.reg, .s32, false, .vex, false, .none, .none⟩, ⟨.rm, .s32, true, .ea, false, .none,
      .none⟩], modifiers := [.op1Add, .spAdd], cpu := [52], opersize := 32, xop := some 128, suffixes := some [.l] },
    { opcode := [0x09, 0x00], operands := [⟨.reg, .s64, false, .vex, false, .none, .none⟩, ⟨.rm, .s64, true, .ea, false, .none,
      .none⟩], modifiers := [.op1Add, .spAdd], cpu := [52], opersize := 64, xopw := 1, xop := some 128, suffixes := some [.q] } ]

/-- gen_x86_insn.py, `add_group("now3d", …)` at lines 8167. -/
def now3d_insn : List RawForm :=
  [ { opcode := [0x0F, 0x0F], operands := [⟨.simdReg, .s64, false, .spare, false, .none, .none⟩, ⟨.simdRM, .s64, true, .ea,
      false, .none, .none⟩], modifiers := [.imm8], cpu := [18] } ]

/-- gen_x86_insn.py, `add_group("cmpxchg16b", …)` at lines 8217. -/
def cmpxchg16b_insn : List RawForm :=
  [ { opcode := [0x0F, 0xC7], operands := [⟨.mem, .s128, true, .ea, false, .none, .none⟩], opersize := 64, spare := 0x1,
      only64 := true } ]

/-- gen_x86_insn.py, `add_group("invlpga", …)` at lines 8234, 8238. -/
def invlpga_insn : List RawForm :=
  [ { opcode := [0x0F, 0x01, 0xDF], cpu := [26] },
    { opcode := [0x0F, 0x01, 0xDF], operands := [⟨.memrAX, .any, false, .adSizeEA, false, .none, .none⟩, ⟨.creg, .s32, false,
      .none, false, .none, .none⟩], cpu := [26] } ]

/-- gen_x86_insn.py, `add_group("skinit", …)` at lines 8246, 8250. -/
def skinit_insn : List RawForm :=
  [ { opcode := [0x0F, 0x01, 0xDE], cpu := [26] },
    { opcode := [0x0F, 0x01, 0xDE], operands := [⟨.memEAX, .any, false, .none, false, .none, .none⟩], cpu := [26] } ]

/-- gen_x86_insn.py, `add_group("svm_rax", …)` at lines 8257, 8262. -/
def svm_rax_insn : List RawForm :=
  [ { opcode := [0x0F, 0x01, 0x00], modifiers := [.op2Add], cpu := [26] },
    { opcode := [0x0F, 0x01, 0x00], operands := [⟨.memrAX, .any, false, .adSizeEA, false, .none, .none⟩],
      modifiers := [.op2Add], cpu := [26] } ]

/-- gen_x86_insn.py, `add_group("padlock", …)` at lines 8290. -/
def padlock_insn : List RawForm :=
  [ { opcode := [0x0F, 0x00], modifiers := [.imm8, .preAdd, .op1Add], cpu := [27] } ]

/-- gen_x86_insn.py, `add_group("cyrixmmx", …)` at lines 8312. -/
def cyrixmmx_insn : List RawForm :=
  [ { opcode := [0x0F, 0x00], operands := [⟨.simdReg, .s64, false, .spare, false, .none, .none⟩, ⟨.simdRM, .s64, true, .ea,
      false, .none, .none⟩], modifiers := [.op1Add], cpu := [14, 19] } ]

/-- gen_x86_insn.py, `add_group("pmachriw", …)` at lines 8331. -/
def pmachriw_insn : List RawForm :=
  [ { opcode := [0x0F, 0x5E], operands := [⟨.simdReg, .s64, false, .spare, false, .none, .none⟩, ⟨.mem, .s64, true, .ea, false,
      .none, .none⟩], cpu := [14, 19] } ]

/-- gen_x86_insn.py, `add_group("rdwrshr", …)` at lines 8346. -/
def rdwrshr_insn : List RawForm :=
  [ { opcode := [0x0F, 0x36], operands := [⟨.rm, .s32, true, .ea, false, .none, .none⟩], modifiers := [.op1Add], cpu := [19, 21,
      6] } ]

/-- gen_x86_insn.py, `add_group("rsdc", …)` at lines 8355. -/
def rsdc_insn : List RawForm :=
  [ { opcode := [0x0F, 0x79], operands := [⟨.segReg, .s16, true, .spare, false, .none, .none⟩, ⟨.mem, .s80, true, .ea, false,
      .none, .none⟩], cpu := [19, 21, 4] } ]

/-- gen_x86_insn.py, `add_group("cyrixsmm", …)` at lines 8363. -/
def cyrixsmm_insn : List RawForm :=
  [ { opcode := [0x0F, 0x00], operands := [⟨.mem, .s80, true, .ea, false, .none, .none⟩], modifiers := [.op1Add], cpu := [19,
      21, 4] } ]

/-- gen_x86_insn.py, `add_group("svdc", …)` at lines 8374. -/
def svdc_insn : List RawForm :=
  [ { opcode := [0x0F, 0x78], operands := [⟨.mem, .s80, true, .ea, false, .none, .none⟩, ⟨.segReg, .s16, true, .spare, false,
      .none, .none⟩], cpu := [19, 21, 4] } ]

/-- gen_x86_insn.py, `add_group("ibts", …)` at lines 8392, 8398. -/
def ibts_insn : List RawForm :=
  [ { opcode := [0x0F, 0xA7], operands := [⟨.rm, .s16, true, .ea, false, .none, .none⟩, ⟨.reg, .s16, false, .spare, false,
      .none, .none⟩], cpu := [23, 24, 3], opersize := 16 },
    { opcode := [0x0F, 0xA7], operands := [⟨.rm, .s32, true, .ea, false, .none, .none⟩, ⟨.reg, .s32, false, .spare, false,
      .none, .none⟩], cpu := [23, 24, 3], opersize := 32 } ]

/-- gen_x86_insn.py, `add_group("umov", …)` at lines 8407, 8412, 8418, 8424, 8429, 8435. -/
def umov_insn : List RawForm :=
  [ { opcode := [0x0F, 0x10], operands := [⟨.rm, .s8, true, .ea, false, .none, .none⟩, ⟨.reg, .s8, false, .spare, false, .none,
      .none⟩], cpu := [23, 3] },
    { opcode := [0x0F, 0x11], operands := [⟨.rm, .s16, true, .ea, false, .none, .none⟩, ⟨.reg, .s16, false, .spare, false,
      .none, .none⟩], cpu := [23, 3], opersize := 16 },
    { opcode := [0x0F, 0x11], operands := [⟨.rm, .s32, true, .ea, false, .none, .none⟩, ⟨.reg, .s32, false, .spare, false,
      .none, .none⟩], cpu := [23, 3], opersize := 32 },
    { opcode := [0x0F, 0x12], operands := [⟨.reg, .s8, false, .spare, false, .none, .none⟩, ⟨.rm, .s8, true, .ea, false, .none,
      .none⟩], cpu := [23, 3] },
    { opcode := [0x0F, 0x13], operands := [⟨.reg, .s16, false, .spare, false, .none, .none⟩, ⟨.rm, .s16, true, .ea, false,
      .none, .none⟩], cpu := [23, 3], opersize := 16 },
    { opcode := [0x0F, 0x13], operands := [⟨.reg, .s32, false, .spare, false, .none, .none⟩, ⟨.rm, .s32, true, .ea, false,
      .none, .none⟩], cpu := [23, 3], opersize := 32 } ]

/-- gen_x86_insn.py, `add_group("xbts", …)` at lines 8444, 8450. -/
def xbts_insn : List RawForm :=
  [ { opcode := [0x0F, 0xA6], operands := [⟨.reg, .s16, false, .spare, false, .none, .none⟩, ⟨.mem, .s16, true, .ea, false,
      .none, .none⟩], cpu := [23, 24, 3], opersize := 16 },
    { opcode := [0x0F, 0xA6], operands := [⟨.reg, .s32, false, .spare, false, .none, .none⟩, ⟨.mem, .s32, true, .ea, false,
      .none, .none⟩], cpu := [23, 24, 3], opersize := 32 } ]

/-- The groups of this file. -/
def groups7 : List (List RawForm) :=
  [insertq_insn, movntsd_insn, movntss_insn, vfrc_pdps_insn, vfrczsd_insn, vfrczss_insn, vpcmov_insn, vpcom_insn,
    vpcom_imm_insn, vphaddsub_insn, vpma_insn, vpperm_insn, vprot_insn, amd_vpshift_insn, fma_128_256_insn,
    fma_128_m32_insn, fma_128_m64_insn, xsaveopt64_insn, movbe_insn, vex_gpr_ndd_rm_0F38_regext_insn,
    vex_gpr_reg_rm_0F_imm8_insn, vex_gpr_reg_nds_rm_0F_insn, vex_gpr_reg_rm_nds_0F_insn, bextr_insn, invpcid_insn,
    intel_SHA1MSG1_insn, intel_SHA1MSG2_insn, intel_SHA1NEXTE_insn, intel_SHA1RNDS4_insn, intel_SHA256MSG1_insn,
    intel_SHA256MSG2_insn, intel_SHA256RNDS2_insn, vex_gpr_ndd_rm_0F38_insn, xop_gpr_reg_rm_09_insn, now3d_insn,
    cmpxchg16b_insn, invlpga_insn, skinit_insn, svm_rax_insn, padlock_insn, cyrixmmx_insn, pmachriw_insn, rdwrshr_insn,
    rsdc_insn, cyrixsmm_insn, svdc_insn, ibts_insn, umov_insn, xbts_insn]

end Verif.Match
