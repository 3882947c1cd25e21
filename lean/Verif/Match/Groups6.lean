/-
The table of modules/arch/x86/gen_x86_insn.py: the calls of `add_group`, with its loops written out.  Made by reading the syntax tree
of the script; nothing but literals and the arithmetic on them is evaluated.
-/
import Verif.Match.Gen

namespace Verif.Match

/-- gen_x86_insn.py, `add_group("vmovd", …)` at lines 6335, 6342. -/
def vmovd_insn : List RawForm :=
  [ { opcode := [0x0F, 0x6E], operands := [⟨.simdReg, .s128, false, .spare, false, .none, .none⟩, ⟨.rm, .s32, true, .ea, false,
      .none, .none⟩], cpu := [34], pfx := 0x66, vex := some 128 },
    { opcode := [0x0F, 0x7E], operands := [⟨.rm, .s32, true, .ea, false, .none, .none⟩, ⟨.simdReg, .s128, false, .spare, false,
      .none, .none⟩], cpu := [34], pfx := 0x66, vex := some 128 } ]

/-- gen_x86_insn.py, `add_group("vmovq", …)` at lines 6352, 6359, 6366, 6373, 6381. -/
def vmovq_insn : List RawForm :=
  [ { opcode := [0x0F, 0x7E], operands := [⟨.simdReg, .s128, false, .spare, false, .none, .none⟩, ⟨.simdReg, .s128, false, .ea,
      false, .none, .none⟩], cpu := [34], pfx := 0xF3, vex := some 128 },
    { opcode := [0x0F, 0x7E], operands := [⟨.simdReg, .s128, false, .spare, false, .none, .none⟩, ⟨.mem, .s64, true, .ea, false,
      .none, .none⟩], cpu := [34], pfx := 0xF3, vex := some 128 },
    { opcode := [0x0F, 0xD6], operands := [⟨.mem, .s64, true, .ea, false, .none, .none⟩, ⟨.simdReg, .s128, false, .spare, false,
      .none, .none⟩], cpu := [34], pfx := 0x66, vex := some 128 },
    { opcode := [0x0F, 0x6E], operands := [⟨.simdReg, .s128, false, .spare, false, .none, .none⟩, ⟨.rm, .s64, true, .ea, false,
      .none, .none⟩], cpu := [34], opersize := 64, pfx := 0x66, vex := some 128 },
    { opcode := [0x0F, 0x7E], operands := [⟨.rm, .s64, true, .ea, false, .none, .none⟩, ⟨.simdReg, .s128, false, .spare, false,
      .none, .none⟩], cpu := [34], opersize := 64, pfx := 0x66, vex := some 128 } ]

/-- gen_x86_insn.py, `add_group("avx_xmm_xmm128", …)` at lines 6393, 6401. -/
def avx_xmm_xmm128_insn : List RawForm :=
  [ { opcode := [0x0F, 0x00], operands := [⟨.simdReg, .s128, false, .spare, false, .none, .none⟩, ⟨.simdRM, .s128, true, .ea,
      false, .none, .none⟩], modifiers := [.preAdd, .op1Add], cpu := [34], vex := some 128 },
    { opcode := [0x0F, 0x00], operands := [⟨.simdReg, .s256, false, .spare, false, .none, .none⟩, ⟨.simdRM, .s256, true, .ea,
      false, .none, .none⟩], modifiers := [.preAdd, .op1Add], cpu := [34], vex := some 256 } ]

/-- gen_x86_insn.py, `add_group("avx_sse4imm", …)` at lines 6420, 6429, 6438. -/
def avx_sse4imm_insn : List RawForm :=
  [ { opcode := [0x0F, 0x3A, 0x00], operands := [⟨.simdReg, .s128, false, .spare, false, .none, .none⟩, ⟨.simdRM, .s128, true,
      .ea, false, .none, .none⟩, ⟨.imm, .s8, true, .imm, false, .none, .none⟩], modifiers := [.op2Add], cpu := [30],
      pfx := 0x66, vex := some 128 },
    { opcode := [0x0F, 0x3A, 0x00], operands := [⟨.simdReg, .s128, false, .spare, false, .none, .none⟩, ⟨.simdRM, .s128, true,
      .ea, false, .none, .none⟩, ⟨.imm, .s8, true, .imm, false, .none, .none⟩], modifiers := [.op2Add], cpu := [34],
      pfx := 0x66, vex := some 128 },
    { opcode := [0x0F, 0x3A, 0x00], operands := [⟨.simdReg, .s256, false, .spare, false, .none, .none⟩, ⟨.simdRM, .s256, true,
      .ea, false, .none, .none⟩, ⟨.imm, .s8, true, .imm, false, .none, .none⟩], modifiers := [.op2Add], cpu := [34],
      pfx := 0x66, vex := some 256 } ]

/-- gen_x86_insn.py, `add_group("vmovddup", …)` at lines 6451, 6459, 6467. -/
def vmovddup_insn : List RawForm :=
  [ { opcode := [0x0F, 0x00], operands := [⟨.simdReg, .s128, false, .spare, false, .none, .none⟩, ⟨.simdReg, .s128, false, .ea,
      false, .none, .none⟩], modifiers := [.preAdd, .op1Add], cpu := [34], vex := some 128 },
    { opcode := [0x0F, 0x00], operands := [⟨.simdReg, .s128, false, .spare, false, .none, .none⟩, ⟨.mem, .s64, true, .ea, false,
      .none, .none⟩], modifiers := [.preAdd, .op1Add], cpu := [34], vex := some 128 },
    { opcode := [0x0F, 0x00], operands := [⟨.simdReg, .s256, false, .spare, false, .none, .none⟩, ⟨.simdRM, .s256, true, .ea,
      false, .none, .none⟩], modifiers := [.preAdd, .op1Add], cpu := [34], vex := some 256 } ]

/-- gen_x86_insn.py, `add_group("avx_xmm_xmm64", …)` at lines 6480, 6488. -/
def avx_xmm_xmm64_insn : List RawForm :=
  [ { opcode := [0x0F, 0x00], operands := [⟨.simdReg, .s128, false, .spare, false, .none, .none⟩, ⟨.simdReg, .s128, false, .ea,
      false, .none, .none⟩], modifiers := [.preAdd, .op1Add], cpu := [16], vex := some 128 },
    { opcode := [0x0F, 0x00], operands := [⟨.simdReg, .s128, false, .spare, false, .none, .none⟩, ⟨.mem, .s64, true, .ea, false,
      .none, .none⟩], modifiers := [.preAdd, .op1Add], cpu := [16], vex := some 128 } ]

/-- gen_x86_insn.py, `add_group("avx_xmm_xmm32", …)` at lines 6502, 6510. -/
def avx_xmm_xmm32_insn : List RawForm :=
  [ { opcode := [0x0F, 0x00], operands := [⟨.simdReg, .s128, false, .spare, false, .none, .none⟩, ⟨.simdReg, .s128, false, .ea,
      false, .none, .none⟩], modifiers := [.preAdd, .op1Add], cpu := [15], vex := some 128 },
    { opcode := [0x0F, 0x00], operands := [⟨.simdReg, .s128, false, .spare, false, .none, .none⟩, ⟨.mem, .s32, true, .ea, false,
      .none, .none⟩], modifiers := [.preAdd, .op1Add], cpu := [15], vex := some 128 } ]

/-- gen_x86_insn.py, `add_group("avx_cvt_xmm64", …)` at lines 6523, 6531, 6539. -/
def avx_cvt_xmm64_insn : List RawForm :=
  [ { opcode := [0x0F, 0x00], operands := [⟨.simdReg, .s128, false, .spare, false, .none, .none⟩, ⟨.simdReg, .s128, false, .ea,
      false, .none, .none⟩], modifiers := [.preAdd, .op1Add], cpu := [34], vex := some 128 },
    { opcode := [0x0F, 0x00], operands := [⟨.simdReg, .s128, false, .spare, false, .none, .none⟩, ⟨.mem, .s64, true, .ea, false,
      .none, .none⟩], modifiers := [.preAdd, .op1Add], cpu := [34], vex := some 128 },
    { opcode := [0x0F, 0x00], operands := [⟨.simdReg, .s256, false, .spare, false, .none, .none⟩, ⟨.simdRM, .s128, true, .ea,
      false, .none, .none⟩], modifiers := [.preAdd, .op1Add], cpu := [34], vex := some 256 } ]

/-- gen_x86_insn.py, `add_group("avx_ssse3_2op", …)` at lines 6553. -/
def avx_ssse3_2op_insn : List RawForm :=
  [ { opcode := [0x0F, 0x38, 0x00], operands := [⟨.simdReg, .s128, false, .spare, false, .none, .none⟩, ⟨.simdRM, .s128, true,
      .ea, false, .none, .none⟩], modifiers := [.op2Add], cpu := [34], pfx := 0x66, vex := some 128 } ]

/-- gen_x86_insn.py, `add_group("avx2_ssse3_2op", …)` at lines 6565. -/
def avx2_ssse3_2op_insn : List RawForm :=
  [ { opcode := [0x0F, 0x38, 0x00], operands := [⟨.simdReg, .s128, false, .spare, false, .none, .none⟩, ⟨.simdRM, .s128, true,
      .ea, false, .none, .none⟩], modifiers := [.op2Add], cpu := [34], pfx := 0x66, vex := some 128 },
    { opcode := [0x0F, 0x38, 0x00], operands := [⟨.simdReg, .s256, false, .spare, false, .none, .none⟩, ⟨.simdRM, .s256, true,
      .ea, false, .none, .none⟩], modifiers := [.op2Add], cpu := [47], pfx := 0x66, vex := some 256 } ]

/-- gen_x86_insn.py, `add_group("avx_cvt_xmm128_x", …)` at lines 6579. -/
def avx_cvt_xmm128_x_insn : List RawForm :=
  [ { opcode := [0x0F, 0x00], operands := [⟨.simdReg, .s128, false, .spare, false, .none, .none⟩, ⟨.simdRM, .s128, true, .ea,
      false, .none, .none⟩], modifiers := [.preAdd, .op1Add], cpu := [34], vex := some 128 } ]

/-- gen_x86_insn.py, `add_group("avx_cvt_xmm128_y", …)` at lines 6587. -/
def avx_cvt_xmm128_y_insn : List RawForm :=
  [ { opcode := [0x0F, 0x00], operands := [⟨.simdReg, .s128, false, .spare, false, .none, .none⟩, ⟨.simdRM, .s256, true, .ea,
      false, .none, .none⟩], modifiers := [.preAdd, .op1Add], cpu := [34], vex := some 256 } ]

/-- gen_x86_insn.py, `add_group("avx_cvt_xmm128", …)` at lines 6596, 6604. -/
def avx_cvt_xmm128_insn : List RawForm :=
  [ { opcode := [0x0F, 0x00], operands := [⟨.simdReg, .s128, false, .spare, false, .none, .none⟩, ⟨.simdRM, .s128, false, .ea,
      false, .none, .none⟩], modifiers := [.preAdd, .op1Add], cpu := [34], vex := some 128 },
    { opcode := [0x0F, 0x00], operands := [⟨.simdReg, .s128, false, .spare, false, .none, .none⟩, ⟨.simdRM, .s256, false, .ea,
      false, .none, .none⟩], modifiers := [.preAdd, .op1Add], cpu := [34], vex := some 256 } ]

/-- gen_x86_insn.py, `add_group("vbroadcastss", …)` at lines 6629, 6636, 6643, 6650. -/
def vbroadcastss_insn : List RawForm :=
  [ { opcode := [0x0F, 0x38, 0x18], operands := [⟨.simdReg, .s128, false, .spare, false, .none, .none⟩, ⟨.mem, .s32, true, .ea,
      false, .none, .none⟩], cpu := [34], pfx := 0x66, vex := some 128 },
    { opcode := [0x0F, 0x38, 0x18], operands := [⟨.simdReg, .s256, false, .spare, false, .none, .none⟩, ⟨.mem, .s32, true, .ea,
      false, .none, .none⟩], cpu := [34], pfx := 0x66, vex := some 256 },
    { opcode := [0x0F, 0x38, 0x18], operands := [⟨.simdReg, .s128, false, .spare, false, .none, .none⟩, ⟨.simdReg, .s128, false,
      .ea, false, .none, .none⟩], cpu := [47], pfx := 0x66, vex := some 128 },
    { opcode := [0x0F, 0x38, 0x18], operands := [⟨.simdReg, .s256, false, .spare, false, .none, .none⟩, ⟨.simdReg, .s128, false,
      .ea, false, .none, .none⟩], cpu := [47], pfx := 0x66, vex := some 256 } ]

/-- gen_x86_insn.py, `add_group("vbroadcastsd", …)` at lines 6660, 6667. -/
def vbroadcastsd_insn : List RawForm :=
  [ { opcode := [0x0F, 0x38, 0x19], operands := [⟨.simdReg, .s256, false, .spare, false, .none, .none⟩, ⟨.mem, .s64, true, .ea,
      false, .none, .none⟩], cpu := [34], pfx := 0x66, vex := some 256 },
    { opcode := [0x0F, 0x38, 0x19], operands := [⟨.simdReg, .s256, false, .spare, false, .none, .none⟩, ⟨.simdReg, .s128, false,
      .ea, false, .none, .none⟩], cpu := [47], pfx := 0x66, vex := some 256 } ]

/-- gen_x86_insn.py, `add_group("vbroadcastif128", …)` at lines 6677. -/
def vbroadcastif128_insn : List RawForm :=
  [ { opcode := [0x0F, 0x38, 0x00], operands := [⟨.simdReg, .s256, false, .spare, false, .none, .none⟩, ⟨.mem, .s128, true, .ea,
      false, .none, .none⟩], modifiers := [.op2Add], pfx := 0x66, vex := some 256 } ]

/-- gen_x86_insn.py, `add_group("vextractif128", …)` at lines 6688. -/
def vextractif128_insn : List RawForm :=
  [ { opcode := [0x0F, 0x3A, 0x00], operands := [⟨.simdRM, .s128, true, .ea, false, .none, .none⟩, ⟨.simdReg, .s256, false,
      .spare, false, .none, .none⟩, ⟨.imm, .s8, true, .imm, false, .none, .none⟩], modifiers := [.op2Add], pfx := 0x66,
      vex := some 256 } ]

/-- gen_x86_insn.py, `add_group("vinsertif128", …)` at lines 6700. -/
def vinsertif128_insn : List RawForm :=
  [ { opcode := [0x0F, 0x3A, 0x00], operands := [⟨.simdReg, .s256, false, .spare, false, .none, .none⟩, ⟨.simdReg, .s256, false,
      .vex, false, .none, .none⟩, ⟨.simdRM, .s128, true, .ea, false, .none, .none⟩, ⟨.imm, .s8, true, .imm, false, .none,
      .none⟩], modifiers := [.op2Add], pfx := 0x66, vex := some 256 } ]

/-- gen_x86_insn.py, `add_group("vzero", …)` at lines 6713. -/
def vzero_insn : List RawForm :=
  [ { opcode := [0x0F, 0x77], modifiers := [.setVEX], cpu := [34] } ]

/-- gen_x86_insn.py, `add_group("vmaskmov", …)` at lines 6722, 6730, 6738, 6746. -/
def vmaskmov_insn : List RawForm :=
  [ { opcode := [0x0F, 0x38, 0x00], operands := [⟨.simdReg, .s128, false, .spare, false, .none, .none⟩, ⟨.simdReg, .s128, false,
      .vex, false, .none, .none⟩, ⟨.simdRM, .s128, true, .ea, false, .none, .none⟩], modifiers := [.op2Add], pfx := 0x66,
      vex := some 128 },
    { opcode := [0x0F, 0x38, 0x00], operands := [⟨.simdReg, .s256, false, .spare, false, .none, .none⟩, ⟨.simdReg, .s256, false,
      .vex, false, .none, .none⟩, ⟨.simdRM, .s256, true, .ea, false, .none, .none⟩], modifiers := [.op2Add], pfx := 0x66,
      vex := some 256 },
    { opcode := [0x0F, 0x38, 0x02], operands := [⟨.simdRM, .s128, true, .ea, false, .none, .none⟩, ⟨.simdReg, .s128, false,
      .vex, false, .none, .none⟩, ⟨.simdReg, .s128, false, .spare, false, .none, .none⟩], modifiers := [.op2Add], pfx := 0x66,
      vex := some 128 },
    { opcode := [0x0F, 0x38, 0x02], operands := [⟨.simdRM, .s256, true, .ea, false, .none, .none⟩, ⟨.simdReg, .s256, false,
      .vex, false, .none, .none⟩, ⟨.simdReg, .s256, false, .spare, false, .none, .none⟩], modifiers := [.op2Add], pfx := 0x66,
      vex := some 256 } ]

/-- gen_x86_insn.py, `add_group("vpermil", …)` at lines 6758, 6767, 6776, 6785. -/
def vpermil_insn : List RawForm :=
  [ { opcode := [0x0F, 0x38, 0x08], operands := [⟨.simdReg, .s128, false, .spare, false, .none, .none⟩, ⟨.simdReg, .s128, false,
      .vex, false, .none, .none⟩, ⟨.simdRM, .s128, true, .ea, false, .none, .none⟩], modifiers := [.op2Add], cpu := [34],
      pfx := 0x66, vex := some 128 },
    { opcode := [0x0F, 0x38, 0x08], operands := [⟨.simdReg, .s256, false, .spare, false, .none, .none⟩, ⟨.simdReg, .s256, false,
      .vex, false, .none, .none⟩, ⟨.simdRM, .s256, true, .ea, false, .none, .none⟩], modifiers := [.op2Add], cpu := [34],
      pfx := 0x66, vex := some 256 },
    { opcode := [0x0F, 0x3A, 0x00], operands := [⟨.simdReg, .s128, false, .spare, false, .none, .none⟩, ⟨.simdRM, .s128, true,
      .ea, false, .none, .none⟩, ⟨.imm, .s8, true, .imm, false, .none, .none⟩], modifiers := [.op2Add], cpu := [34],
      pfx := 0x66, vex := some 128 },
    { opcode := [0x0F, 0x3A, 0x00], operands := [⟨.simdReg, .s256, false, .spare, false, .none, .none⟩, ⟨.simdRM, .s256, true,
      .ea, false, .none, .none⟩, ⟨.imm, .s8, true, .imm, false, .none, .none⟩], modifiers := [.op2Add], cpu := [34],
      pfx := 0x66, vex := some 256 } ]

/-- gen_x86_insn.py, `add_group("vperm2f128", …)` at lines 6798. -/
def vperm2f128_insn : List RawForm :=
  [ { opcode := [0x0F, 0x3A, 0x06], operands := [⟨.simdReg, .s256, false, .spare, false, .none, .none⟩, ⟨.simdReg, .s256, false,
      .vex, false, .none, .none⟩, ⟨.simdRM, .s256, true, .ea, false, .none, .none⟩, ⟨.imm, .s8, true, .imm, false, .none,
      .none⟩], cpu := [34], pfx := 0x66, vex := some 256 } ]

/-- gen_x86_insn.py, `add_group("vperm_var_avx2", …)` at lines 6818. -/
def vperm_var_avx2_insn : List RawForm :=
  [ { opcode := [0x0F, 0x38, 0x00], operands := [⟨.simdReg, .s256, false, .spare, false, .none, .none⟩, ⟨.simdReg, .s256, false,
      .vex, false, .none, .none⟩, ⟨.simdRM, .s256, true, .ea, false, .none, .none⟩], modifiers := [.op2Add], cpu := [47],
      pfx := 0x66, vex := some 256 } ]

/-- gen_x86_insn.py, `add_group("vperm_imm_avx2", …)` at lines 6833. -/
def vperm_imm_avx2_insn : List RawForm :=
  [ { opcode := [0x0F, 0x3A, 0x00], operands := [⟨.simdReg, .s256, false, .spare, false, .none, .none⟩, ⟨.simdRM, .s256, true,
      .ea, false, .none, .none⟩, ⟨.imm, .s8, true, .imm, false, .none, .none⟩], modifiers := [.op2Add], cpu := [47], vexw := 1,
      pfx := 0x66, vex := some 256 } ]

/-- gen_x86_insn.py, `add_group("vperm2i128_avx2", …)` at lines 6847. -/
def vperm2i128_avx2_insn : List RawForm :=
  [ { opcode := [0x0F, 0x3A, 0x46], operands := [⟨.simdReg, .s256, false, .spare, false, .none, .none⟩, ⟨.simdReg, .s256, false,
      .vex, false, .none, .none⟩, ⟨.simdRM, .s256, true, .ea, false, .none, .none⟩, ⟨.imm, .s8, true, .imm, false, .none,
      .none⟩], cpu := [47], pfx := 0x66, vex := some 256 } ]

/-- gen_x86_insn.py, `add_group("vpbroadcastb_avx2", …)` at lines 6861, 6871. -/
def vpbroadcastb_avx2_insn : List RawForm :=
  [ { opcode := [0x0F, 0x38, 0x78], operands := [⟨.simdReg, .s128, false, .spare, false, .none, .none⟩, ⟨.simdReg, .s128, true,
      .ea, false, .none, .none⟩], cpu := [47], pfx := 0x66, vex := some 128 },
    { opcode := [0x0F, 0x38, 0x78], operands := [⟨.simdReg, .s256, false, .spare, false, .none, .none⟩, ⟨.simdReg, .s128, true,
      .ea, false, .none, .none⟩], cpu := [47], pfx := 0x66, vex := some 256 },
    { opcode := [0x0F, 0x38, 0x78], operands := [⟨.simdReg, .s128, false, .spare, false, .none, .none⟩, ⟨.rm, .s8, true, .ea,
      false, .none, .none⟩], cpu := [47], pfx := 0x66, vex := some 128 },
    { opcode := [0x0F, 0x38, 0x78], operands := [⟨.simdReg, .s256, false, .spare, false, .none, .none⟩, ⟨.rm, .s8, true, .ea,
      false, .none, .none⟩], cpu := [47], pfx := 0x66, vex := some 256 } ]

/-- gen_x86_insn.py, `add_group("vpbroadcastw_avx2", …)` at lines 6884, 6894. -/
def vpbroadcastw_avx2_insn : List RawForm :=
  [ { opcode := [0x0F, 0x38, 0x79], operands := [⟨.simdReg, .s128, false, .spare, false, .none, .none⟩, ⟨.simdReg, .s128, true,
      .ea, false, .none, .none⟩], cpu := [47], pfx := 0x66, vex := some 128 },
    { opcode := [0x0F, 0x38, 0x79], operands := [⟨.simdReg, .s256, false, .spare, false, .none, .none⟩, ⟨.simdReg, .s128, true,
      .ea, false, .none, .none⟩], cpu := [47], pfx := 0x66, vex := some 256 },
    { opcode := [0x0F, 0x38, 0x79], operands := [⟨.simdReg, .s128, false, .spare, false, .none, .none⟩, ⟨.rm, .s16, true, .ea,
      false, .none, .none⟩], cpu := [47], pfx := 0x66, vex := some 128 },
    { opcode := [0x0F, 0x38, 0x79], operands := [⟨.simdReg, .s256, false, .spare, false, .none, .none⟩, ⟨.rm, .s16, true, .ea,
      false, .none, .none⟩], cpu := [47], pfx := 0x66, vex := some 256 } ]

/-- gen_x86_insn.py, `add_group("vpbroadcastd_avx2", …)` at lines 6907, 6917. -/
def vpbroadcastd_avx2_insn : List RawForm :=
  [ { opcode := [0x0F, 0x38, 0x58], operands := [⟨.simdReg, .s128, false, .spare, false, .none, .none⟩, ⟨.simdReg, .s128, true,
      .ea, false, .none, .none⟩], cpu := [47], pfx := 0x66, vex := some 128 },
    { opcode := [0x0F, 0x38, 0x58], operands := [⟨.simdReg, .s256, false, .spare, false, .none, .none⟩, ⟨.simdReg, .s128, true,
      .ea, false, .none, .none⟩], cpu := [47], pfx := 0x66, vex := some 256 },
    { opcode := [0x0F, 0x38, 0x58], operands := [⟨.simdReg, .s128, false, .spare, false, .none, .none⟩, ⟨.rm, .s32, true, .ea,
      false, .none, .none⟩], cpu := [47], pfx := 0x66, vex := some 128 },
    { opcode := [0x0F, 0x38, 0x58], operands := [⟨.simdReg, .s256, false, .spare, false, .none, .none⟩, ⟨.rm, .s32, true, .ea,
      false, .none, .none⟩], cpu := [47], pfx := 0x66, vex := some 256 } ]

/-- gen_x86_insn.py, `add_group("vpbroadcastq_avx2", …)` at lines 6930, 6940. -/
def vpbroadcastq_avx2_insn : List RawForm :=
  [ { opcode := [0x0F, 0x38, 0x59], operands := [⟨.simdReg, .s128, false, .spare, false, .none, .none⟩, ⟨.simdReg, .s128, true,
      .ea, false, .none, .none⟩], cpu := [47], pfx := 0x66, vex := some 128 },
    { opcode := [0x0F, 0x38, 0x59], operands := [⟨.simdReg, .s256, false, .spare, false, .none, .none⟩, ⟨.simdReg, .s128, true,
      .ea, false, .none, .none⟩], cpu := [47], pfx := 0x66, vex := some 256 },
    { opcode := [0x0F, 0x38, 0x59], operands := [⟨.simdReg, .s128, false, .spare, false, .none, .none⟩, ⟨.simdRM, .s64, true,
      .ea, false, .none, .none⟩], cpu := [47], pfx := 0x66, vex := some 128 },
    { opcode := [0x0F, 0x38, 0x59], operands := [⟨.simdReg, .s256, false, .spare, false, .none, .none⟩, ⟨.simdRM, .s64, true,
      .ea, false, .none, .none⟩], cpu := [47], pfx := 0x66, vex := some 256 } ]

/-- gen_x86_insn.py, `add_group("vpshiftv_vexw0_avx2", …)` at lines 6952. -/
def vpshiftv_vexw0_avx2_insn : List RawForm :=
  [ { opcode := [0x0F, 0x38, 0x00], operands := [⟨.simdReg, .s128, false, .spare, false, .none, .none⟩, ⟨.simdReg, .s128, false,
      .vex, false, .none, .none⟩, ⟨.simdRM, .s128, true, .ea, false, .none, .none⟩], modifiers := [.op2Add], cpu := [47],
      pfx := 0x66, vex := some 128 },
    { opcode := [0x0F, 0x38, 0x00], operands := [⟨.simdReg, .s256, false, .spare, false, .none, .none⟩, ⟨.simdReg, .s256, false,
      .vex, false, .none, .none⟩, ⟨.simdRM, .s256, true, .ea, false, .none, .none⟩], modifiers := [.op2Add], cpu := [47],
      pfx := 0x66, vex := some 256 } ]

/-- gen_x86_insn.py, `add_group("vpshiftv_vexw1_avx2", …)` at lines 6964. -/
def vpshiftv_vexw1_avx2_insn : List RawForm :=
  [ { opcode := [0x0F, 0x38, 0x00], operands := [⟨.simdReg, .s128, false, .spare, false, .none, .none⟩, ⟨.simdReg, .s128, false,
      .vex, false, .none, .none⟩, ⟨.simdRM, .s128, true, .ea, false, .none, .none⟩], modifiers := [.op2Add], cpu := [47],
      vexw := 1, pfx := 0x66, vex := some 128 },
    { opcode := [0x0F, 0x38, 0x00], operands := [⟨.simdReg, .s256, false, .spare, false, .none, .none⟩, ⟨.simdReg, .s256, false,
      .vex, false, .none, .none⟩, ⟨.simdRM, .s256, true, .ea, false, .none, .none⟩], modifiers := [.op2Add], cpu := [47],
      vexw := 1, pfx := 0x66, vex := some 256 } ]

/-- gen_x86_insn.py, `add_group("vmaskmov_vexw1_avx2", …)` at lines 6986, 6998. -/
def vmaskmov_vexw1_avx2_insn : List RawForm :=
  [ { opcode := [0x0F, 0x38, 0x00], operands := [⟨.simdReg, .s128, false, .spare, false, .none, .none⟩, ⟨.simdReg, .s128, false,
      .vex, false, .none, .none⟩, ⟨.simdRM, .s128, true, .ea, false, .none, .none⟩], modifiers := [.op2Add], cpu := [47],
      vexw := 1, pfx := 0x66, vex := some 128 },
    { opcode := [0x0F, 0x38, 0x00], operands := [⟨.simdReg, .s256, false, .spare, false, .none, .none⟩, ⟨.simdReg, .s256, false,
      .vex, false, .none, .none⟩, ⟨.simdRM, .s256, true, .ea, false, .none, .none⟩], modifiers := [.op2Add], cpu := [47],
      vexw := 1, pfx := 0x66, vex := some 256 },
    { opcode := [0x0F, 0x38, 0x02], operands := [⟨.simdRM, .s128, true, .ea, false, .none, .none⟩, ⟨.simdReg, .s128, false,
      .vex, false, .none, .none⟩, ⟨.simdReg, .s128, false, .spare, false, .none, .none⟩], modifiers := [.op2Add], cpu := [47],
      vexw := 1, pfx := 0x66, vex := some 128 },
    { opcode := [0x0F, 0x38, 0x02], operands := [⟨.simdRM, .s256, true, .ea, false, .none, .none⟩, ⟨.simdReg, .s256, false,
      .vex, false, .none, .none⟩, ⟨.simdReg, .s256, false, .spare, false, .none, .none⟩], modifiers := [.op2Add], cpu := [47],
      vexw := 1, pfx := 0x66, vex := some 256 } ]

/-- gen_x86_insn.py, `add_group("vex_66_0F3A_imm8_avx2", …)` at lines 7012. -/
def vex_66_0F3A_imm8_avx2_insn : List RawForm :=
  [ { opcode := [0x0F, 0x3A, 0x00], operands := [⟨.simdReg, .s128, false, .spare, false, .none, .none⟩, ⟨.simdReg, .s128, false,
      .vex, false, .none, .none⟩, ⟨.simdRM, .s128, true, .ea, false, .none, .none⟩, ⟨.imm, .s8, true, .imm, false, .none,
      .none⟩], modifiers := [.op2Add], cpu := [47], pfx := 0x66, vex := some 128 },
    { opcode := [0x0F, 0x3A, 0x00], operands := [⟨.simdReg, .s256, false, .spare, false, .none, .none⟩, ⟨.simdReg, .s256, false,
      .vex, false, .none, .none⟩, ⟨.simdRM, .s256, true, .ea, false, .none, .none⟩, ⟨.imm, .s8, true, .imm, false, .none,
      .none⟩], modifiers := [.op2Add], cpu := [47], pfx := 0x66, vex := some 256 } ]

/-- gen_x86_insn.py, `add_group("gather_64x_64x", …)` at lines 7027, 7037. -/
def gather_64x_64x_insn : List RawForm :=
  [ { opcode := [0x0F, 0x38, 0x00], operands := [⟨.simdReg, .s128, false, .spare, false, .none, .none⟩, ⟨.memXMMIndex, .s64,
      true, .ea, false, .none, .none⟩, ⟨.simdReg, .s128, false, .vex, false, .none, .none⟩], modifiers := [.op2Add],
      cpu := [47], vexw := 1, pfx := 0x66, vex := some 128 },
    { opcode := [0x0F, 0x38, 0x00], operands := [⟨.simdReg, .s256, false, .spare, false, .none, .none⟩, ⟨.memXMMIndex, .s64,
      true, .ea, false, .none, .none⟩, ⟨.simdReg, .s256, false, .vex, false, .none, .none⟩], modifiers := [.op2Add],
      cpu := [47], vexw := 1, pfx := 0x66, vex := some 256 } ]

/-- gen_x86_insn.py, `add_group("gather_64x_64y", …)` at lines 7050, 7060. -/
def gather_64x_64y_insn : List RawForm :=
  [ { opcode := [0x0F, 0x38, 0x00], operands := [⟨.simdReg, .s128, false, .spare, false, .none, .none⟩, ⟨.memXMMIndex, .s64,
      true, .ea, false, .none, .none⟩, ⟨.simdReg, .s128, false, .vex, false, .none, .none⟩], modifiers := [.op2Add],
      cpu := [47], vexw := 1, pfx := 0x66, vex := some 128 },
    { opcode := [0x0F, 0x38, 0x00], operands := [⟨.simdReg, .s256, false, .spare, false, .none, .none⟩, ⟨.memYMMIndex, .s64,
      true, .ea, false, .none, .none⟩, ⟨.simdReg, .s256, false, .vex, false, .none, .none⟩], modifiers := [.op2Add],
      cpu := [47], vexw := 1, pfx := 0x66, vex := some 256 } ]

/-- gen_x86_insn.py, `add_group("gather_32x_32y", …)` at lines 7073, 7083. -/
def gather_32x_32y_insn : List RawForm :=
  [ { opcode := [0x0F, 0x38, 0x00], operands := [⟨.simdReg, .s128, false, .spare, false, .none, .none⟩, ⟨.memXMMIndex, .s32,
      true, .ea, false, .none, .none⟩, ⟨.simdReg, .s128, false, .vex, false, .none, .none⟩], modifiers := [.op2Add],
      cpu := [47], pfx := 0x66, vex := some 128 },
    { opcode := [0x0F, 0x38, 0x00], operands := [⟨.simdReg, .s256, false, .spare, false, .none, .none⟩, ⟨.memYMMIndex, .s32,
      true, .ea, false, .none, .none⟩, ⟨.simdReg, .s256, false, .vex, false, .none, .none⟩], modifiers := [.op2Add],
      cpu := [47], pfx := 0x66, vex := some 256 } ]

/-- gen_x86_insn.py, `add_group("gather_32x_32y_128", …)` at lines 7096, 7106. -/
def gather_32x_32y_128_insn : List RawForm :=
  [ { opcode := [0x0F, 0x38, 0x00], operands := [⟨.simdReg, .s128, false, .spare, false, .none, .none⟩, ⟨.memXMMIndex, .s32,
      true, .ea, false, .none, .none⟩, ⟨.simdReg, .s128, false, .vex, false, .none, .none⟩], modifiers := [.op2Add],
      cpu := [47], pfx := 0x66, vex := some 128 },
    { opcode := [0x0F, 0x38, 0x00], operands := [⟨.simdReg, .s128, false, .spare, false, .none, .none⟩, ⟨.memYMMIndex, .s32,
      true, .ea, false, .none, .none⟩, ⟨.simdReg, .s128, false, .vex, false, .none, .none⟩], modifiers := [.op2Add],
      cpu := [47], pfx := 0x66, vex := some 256 } ]

/-- gen_x86_insn.py, `add_group("tsx_xabort", …)` at lines 7125. -/
def tsx_xabort_insn : List RawForm :=
  [ { opcode := [0xC6, 0xF8], operands := [⟨.imm, .s8, true, .imm, false, .none, .none⟩], cpu := [53] } ]

/-- gen_x86_insn.py, `add_group("tsx_xbegin", …)` at lines 7133, 7138. -/
def tsx_xbegin_insn : List RawForm :=
  [ { opcode := [0xC7, 0xF8], operands := [⟨.imm, .s32, false, .jmpRel, false, .near, .none⟩], cpu := [53] },
    { opcode := [0xC7, 0xF8], operands := [⟨.imm, .s16, false, .jmpRel, false, .near, .none⟩], cpu := [53], opersize := 16,
      not64 := true } ]

/-- gen_x86_insn.py, `add_group("tsx_0x0F_0x01", …)` at lines 7146. -/
def tsx_0x0F_0x01_insn : List RawForm :=
  [ { opcode := [0x0F, 0x01, 0x00], modifiers := [.op2Add], cpu := [53] } ]

/-- gen_x86_insn.py, `add_group("vfma_ps", …)` at lines 7163, 7173. -/
def vfma_ps_insn : List RawForm :=
  [ { opcode := [0x0F, 0x38, 0x00], operands := [⟨.simdReg, .s128, false, .spare, false, .none, .none⟩, ⟨.simdReg, .s128, false,
      .vex, false, .none, .none⟩, ⟨.simdRM, .s128, true, .ea, false, .none, .none⟩], modifiers := [.op2Add], cpu := [35],
      pfx := 0x66, vex := some 128 },
    { opcode := [0x0F, 0x38, 0x00], operands := [⟨.simdReg, .s256, false, .spare, false, .none, .none⟩, ⟨.simdReg, .s256, false,
      .vex, false, .none, .none⟩, ⟨.simdRM, .s256, true, .ea, false, .none, .none⟩], modifiers := [.op2Add], cpu := [35],
      pfx := 0x66, vex := some 256 } ]

/-- gen_x86_insn.py, `add_group("vfma_pd", …)` at lines 7185, 7195. -/
def vfma_pd_insn : List RawForm :=
  [ { opcode := [0x0F, 0x38, 0x00], operands := [⟨.simdReg, .s128, false, .spare, false, .none, .none⟩, ⟨.simdReg, .s128, false,
      .vex, false, .none, .none⟩, ⟨.simdRM, .s128, true, .ea, false, .none, .none⟩], modifiers := [.op2Add], cpu := [35],
      vexw := 1, pfx := 0x66, vex := some 128 },
    { opcode := [0x0F, 0x38, 0x00], operands := [⟨.simdReg, .s256, false, .spare, false, .none, .none⟩, ⟨.simdReg, .s256, false,
      .vex, false, .none, .none⟩, ⟨.simdRM, .s256, true, .ea, false, .none, .none⟩], modifiers := [.op2Add], cpu := [35],
      vexw := 1, pfx := 0x66, vex := some 256 } ]

/-- gen_x86_insn.py, `add_group("vfma_ss", …)` at lines 7206, 7217. -/
def vfma_ss_insn : List RawForm :=
  [ { opcode := [0x0F, 0x38, 0x00], operands := [⟨.simdReg, .s128, false, .spare, false, .none, .none⟩, ⟨.simdReg, .s128, false,
      .vex, false, .none, .none⟩, ⟨.simdReg, .s128, false, .ea, false, .none, .none⟩], modifiers := [.op2Add], cpu := [35],
      pfx := 0x66, vex := some 128 },
    { opcode := [0x0F, 0x38, 0x00], operands := [⟨.simdReg, .s128, false, .spare, false, .none, .none⟩, ⟨.simdReg, .s128, false,
      .vex, false, .none, .none⟩, ⟨.mem, .s32, true, .ea, false, .none, .none⟩], modifiers := [.op2Add], cpu := [35],
      pfx := 0x66, vex := some 128 } ]

/-- gen_x86_insn.py, `add_group("vfma_sd", …)` at lines 7228, 7239. -/
def vfma_sd_insn : List RawForm :=
  [ { opcode := [0x0F, 0x38, 0x00], operands := [⟨.simdReg, .s128, false, .spare, false, .none, .none⟩, ⟨.simdReg, .s128, false,
      .vex, false, .none, .none⟩, ⟨.simdReg, .s128, false, .ea, false, .none, .none⟩], modifiers := [.op2Add], cpu := [35],
      vexw := 1, pfx := 0x66, vex := some 128 },
    { opcode := [0x0F, 0x38, 0x00], operands := [⟨.simdReg, .s128, false, .spare, false, .none, .none⟩, ⟨.simdReg, .s128, false,
      .vex, false, .none, .none⟩, ⟨.mem, .s64, true, .ea, false, .none, .none⟩], modifiers := [.op2Add], cpu := [35], vexw := 1,
      pfx := 0x66, vex := some 128 } ]

/-- gen_x86_insn.py, `add_group("aes", …)` at lines 7268, 7275. -/
def aes_insn : List RawForm :=
  [ { opcode := [0x0F, 0x00, 0x00], operands := [⟨.simdReg, .s128, false, .spareVEX, false, .none, .none⟩, ⟨.simdRM, .s128,
      true, .ea, false, .none, .none⟩], modifiers := [.op1Add, .op2Add, .setVEX], cpu := [36], pfx := 0x66 },
    { opcode := [0x0F, 0x00, 0x00], operands := [⟨.simdReg, .s128, false, .spare, false, .none, .none⟩, ⟨.simdReg, .s128, false,
      .vex, false, .none, .none⟩, ⟨.simdRM, .s128, true, .ea, false, .none, .none⟩], modifiers := [.op1Add, .op2Add],
      cpu := [36, 34], pfx := 0x66, vex := some 128 } ]

/-- gen_x86_insn.py, `add_group("aesimc", …)` at lines 7296. -/
def aesimc_insn : List RawForm :=
  [ { opcode := [0x0F, 0x00, 0x00], operands := [⟨.simdReg, .s128, false, .spare, false, .none, .none⟩, ⟨.simdRM, .s128, true,
      .ea, false, .none, .none⟩], modifiers := [.op1Add, .op2Add, .setVEX], cpu := [36], pfx := 0x66 } ]

/-- gen_x86_insn.py, `add_group("aes_imm", …)` at lines 7308. -/
def aes_imm_insn : List RawForm :=
  [ { opcode := [0x0F, 0x00, 0x00], operands := [⟨.simdReg, .s128, false, .spare, false, .none, .none⟩, ⟨.simdRM, .s128, true,
      .ea, false, .none, .none⟩, ⟨.imm, .s8, true, .imm, false, .none, .none⟩], modifiers := [.op1Add, .op2Add, .setVEX],
      cpu := [36], pfx := 0x66 } ]

/-- gen_x86_insn.py, `add_group("pclmulqdq", …)` at lines 7325, 7333. -/
def pclmulqdq_insn : List RawForm :=
  [ { opcode := [0x0F, 0x00, 0x00], operands := [⟨.simdReg, .s128, false, .spareVEX, false, .none, .none⟩, ⟨.simdRM, .s128,
      true, .ea, false, .none, .none⟩, ⟨.imm, .s8, true, .imm, false, .none, .none⟩], modifiers := [.op1Add, .op2Add, .setVEX],
      cpu := [37], pfx := 0x66 },
    { opcode := [0x0F, 0x00, 0x00], operands := [⟨.simdReg, .s128, false, .spare, false, .none, .none⟩, ⟨.simdReg, .s128, false,
      .vex, false, .none, .none⟩, ⟨.simdRM, .s128, true, .ea, false, .none, .none⟩, ⟨.imm, .s8, true, .imm, false, .none,
      .none⟩], modifiers := [.op1Add, .op2Add], cpu := [37, 34], pfx := 0x66, vex := some 128 } ]

/-- gen_x86_insn.py, `add_group("pclmulqdq_fixed", …)` at lines 7347, 7354. -/
def pclmulqdq_fixed_insn : List RawForm :=
  [ { opcode := [0x0F, 0x3A, 0x44], operands := [⟨.simdReg, .s128, false, .spareVEX, false, .none, .none⟩, ⟨.simdRM, .s128,
      true, .ea, false, .none, .none⟩], modifiers := [.imm8, .setVEX], cpu := [37], pfx := 0x66 },
    { opcode := [0x0F, 0x3A, 0x44], operands := [⟨.simdReg, .s128, false, .spare, false, .none, .none⟩, ⟨.simdReg, .s128, false,
      .vex, false, .none, .none⟩, ⟨.simdRM, .s128, true, .ea, false, .none, .none⟩], modifiers := [.imm8], cpu := [37, 34],
      pfx := 0x66, vex := some 128 } ]

/-- gen_x86_insn.py, `add_group("rdrand", …)` at lines 7374, 7379, 7385. -/
def rdrand_insn : List RawForm :=
  [ { opcode := [0x0F, 0xC7], operands := [⟨.reg, .s16, false, .ea, false, .none, .none⟩], modifiers := [.spAdd],
      opersize := 16 },
    { opcode := [0x0F, 0xC7], operands := [⟨.reg, .s32, false, .ea, false, .none, .none⟩], modifiers := [.spAdd],
      opersize := 32 },
    { opcode := [0x0F, 0xC7], operands := [⟨.reg, .s64, false, .ea, false, .none, .none⟩], modifiers := [.spAdd],
      opersize := 64 } ]

/-- gen_x86_insn.py, `add_group("fs_gs_base", …)` at lines 7394, 7402. -/
def fs_gs_base_insn : List RawForm :=
  [ { opcode := [0x0F, 0xAE], operands := [⟨.reg, .s32, false, .ea, false, .none, .none⟩], modifiers := [.spAdd], cpu := [42],
      opersize := 32, pfx := 0xF3, only64 := true },
    { opcode := [0x0F, 0xAE], operands := [⟨.reg, .s64, false, .ea, false, .none, .none⟩], modifiers := [.spAdd], cpu := [42],
      opersize := 64, pfx := 0xF3, only64 := true } ]

/-- gen_x86_insn.py, `add_group("avx_cvtps2ph", …)` at lines 7448, 7456, 7464, 7472. -/
def avx_cvtps2ph_insn : List RawForm :=
  [ { opcode := [0x0F, 0x3A, 0x00], operands := [⟨.simdReg, .s128, false, .ea, false, .none, .none⟩, ⟨.simdReg, .s128, false,
      .spare, false, .none, .none⟩, ⟨.imm, .s8, true, .imm, false, .none, .none⟩], modifiers := [.preAdd, .op2Add], cpu := [41,
      34], vex := some 128 },
    { opcode := [0x0F, 0x3A, 0x00], operands := [⟨.mem, .s64, false, .ea, false, .none, .none⟩, ⟨.simdReg, .s128, false, .spare,
      false, .none, .none⟩, ⟨.imm, .s8, true, .imm, false, .none, .none⟩], modifiers := [.preAdd, .op2Add], cpu := [41, 34],
      vex := some 128 },
    { opcode := [0x0F, 0x3A, 0x00], operands := [⟨.simdReg, .s128, false, .ea, false, .none, .none⟩, ⟨.simdReg, .s256, false,
      .spare, false, .none, .none⟩, ⟨.imm, .s8, true, .imm, false, .none, .none⟩], modifiers := [.preAdd, .op2Add], cpu := [41,
      34], vex := some 256 },
    { opcode := [0x0F, 0x3A, 0x00], operands := [⟨.mem, .s128, false, .ea, false, .none, .none⟩, ⟨.simdReg, .s256, false,
      .spare, false, .none, .none⟩, ⟨.imm, .s8, true, .imm, false, .none, .none⟩], modifiers := [.preAdd, .op2Add], cpu := [41,
      34], vex := some 256 } ]

/-- gen_x86_insn.py, `add_group("avx_cvtph2ps", …)` at lines 7448, 7456, 7464, 7472. -/
def avx_cvtph2ps_insn : List RawForm :=
  [ { opcode := [0x0F, 0x38, 0x00], operands := [⟨.simdReg, .s128, false, .spare, false, .none, .none⟩, ⟨.simdReg, .s128, false,
      .ea, false, .none, .none⟩], modifiers := [.preAdd, .op2Add], cpu := [41, 34], vex := some 128 },
    { opcode := [0x0F, 0x38, 0x00], operands := [⟨.simdReg, .s128, false, .spare, false, .none, .none⟩, ⟨.mem, .s64, false, .ea,
      false, .none, .none⟩], modifiers := [.preAdd, .op2Add], cpu := [41, 34], vex := some 128 },
    { opcode := [0x0F, 0x38, 0x00], operands := [⟨.simdReg, .s256, false, .spare, false, .none, .none⟩, ⟨.simdReg, .s128, false,
      .ea, false, .none, .none⟩], modifiers := [.preAdd, .op2Add], cpu := [41, 34], vex := some 256 },
    { opcode := [0x0F, 0x38, 0x00], operands := [⟨.simdReg, .s256, false, .spare, false, .none, .none⟩, ⟨.mem, .s128, false,
      .ea, false, .none, .none⟩], modifiers := [.preAdd, .op2Add], cpu := [41, 34], vex := some 256 } ]

/-- gen_x86_insn.py, `add_group("extrq", …)` at lines 7487, 7494. -/
def extrq_insn : List RawForm :=
  [ { opcode := [0x0F, 0x78], operands := [⟨.simdReg, .s128, false, .ea, false, .none, .none⟩, ⟨.imm, .s8, true, .ea, false,
      .none, .none⟩, ⟨.imm, .s8, true, .imm, false, .none, .none⟩], cpu := [32], pfx := 0x66 },
    { opcode := [0x0F, 0x79], operands := [⟨.simdReg, .s128, false, .spare, false, .none, .none⟩, ⟨.simdReg, .s128, false, .ea,
      false, .none, .none⟩], cpu := [32], pfx := 0x66 } ]

/-- The groups of this file. -/
def groups6 : List (List RawForm) :=
  [vmovd_insn, vmovq_insn, avx_xmm_xmm128_insn, avx_sse4imm_insn, vmovddup_insn, avx_xmm_xmm64_insn, avx_xmm_xmm32_insn,
    avx_cvt_xmm64_insn, avx_ssse3_2op_insn, avx2_ssse3_2op_insn, avx_cvt_xmm128_x_insn, avx_cvt_xmm128_y_insn,
    avx_cvt_xmm128_insn, vbroadcastss_insn, vbroadcastsd_insn, vbroadcastif128_insn, vextractif128_insn,
    vinsertif128_insn, vzero_insn, vmaskmov_insn, vpermil_insn, vperm2f128_insn, vperm_var_avx2_insn,
    vperm_imm_avx2_insn, vperm2i128_avx2_insn, vpbroadcastb_avx2_insn, vpbroadcastw_avx2_insn, vpbroadcastd_avx2_insn,
    vpbroadcastq_avx2_insn, vpshiftv_vexw0_avx2_insn, vpshiftv_vexw1_avx2_insn, vmaskmov_vexw1_avx2_insn,
    vex_66_0F3A_imm8_avx2_insn, gather_64x_64x_insn, gather_64x_64y_insn, gather_32x_32y_insn, gather_32x_32y_128_insn,
    tsx_xabort_insn, tsx_xbegin_insn, tsx_0x0F_0x01_insn, vfma_ps_insn, vfma_pd_insn, vfma_ss_insn, vfma_sd_insn,
    aes_insn, aesimc_insn, aes_imm_insn, pclmulqdq_insn, pclmulqdq_fixed_insn, rdrand_insn, fs_gs_base_insn,
    avx_cvtps2ph_insn, avx_cvtph2ps_insn, extrq_insn]

end Verif.Match
