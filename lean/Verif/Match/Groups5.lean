/-
The table of modules/arch/x86/gen_x86_insn.py: the calls of `add_group`, with its loops written out.  Made by reading the syntax tree
of the script; nothing but literals and the arithmetic on them is evaluated.
-/
import Verif.Match.Gen

namespace Verif.Match

/-- gen_x86_insn.py, `add_group("pinsrw", …)` at lines 4944, 4952, 4962, 4970, 4979, 4990, 4999, 5009, 5021. -/
def pinsrw_insn : List RawForm :=
  [ { opcode := [0x0F, 0xC4], operands := [⟨.simdReg, .s64, false, .spare, false, .none, .none⟩, ⟨.reg, .s32, false, .ea, false,
      .none, .none⟩, ⟨.imm, .s8, true, .imm, false, .none, .none⟩], cpu := [14, 7], suffixes := some [.l], notavx := true },
    { opcode := [0x0F, 0xC4], operands := [⟨.simdReg, .s64, false, .spare, false, .none, .none⟩, ⟨.reg, .s64, false, .ea, false,
      .none, .none⟩, ⟨.imm, .s8, true, .imm, false, .none, .none⟩], cpu := [14, 7], opersize := 64, def64 := 64,
      suffixes := some [.q], notavx := true },
    { opcode := [0x0F, 0xC4], operands := [⟨.simdReg, .s64, false, .spare, false, .none, .none⟩, ⟨.mem, .s16, true, .ea, false,
      .none, .none⟩, ⟨.imm, .s8, true, .imm, false, .none, .none⟩], cpu := [14, 7], suffixes := some [.l], notavx := true },
    { opcode := [0x0F, 0xC4], operands := [⟨.simdReg, .s128, false, .spareVEX, false, .none, .none⟩, ⟨.reg, .s32, false, .ea,
      false, .none, .none⟩, ⟨.imm, .s8, true, .imm, false, .none, .none⟩], modifiers := [.setVEX], cpu := [16], pfx := 0x66,
      suffixes := some [.l] },
    { opcode := [0x0F, 0xC4], operands := [⟨.simdReg, .s128, false, .spareVEX, false, .none, .none⟩, ⟨.reg, .s64, false, .ea,
      false, .none, .none⟩, ⟨.imm, .s8, true, .imm, false, .none, .none⟩], modifiers := [.setVEX], cpu := [16], opersize := 64,
      def64 := 64, pfx := 0x66, suffixes := some [.q] },
    { opcode := [0x0F, 0xC4], operands := [⟨.simdReg, .s128, false, .spareVEX, false, .none, .none⟩, ⟨.mem, .s16, true, .ea,
      false, .none, .none⟩, ⟨.imm, .s8, true, .imm, false, .none, .none⟩], modifiers := [.setVEX], cpu := [16], pfx := 0x66,
      suffixes := some [.l] },
    { opcode := [0x0F, 0xC4], operands := [⟨.simdReg, .s128, false, .spare, false, .none, .none⟩, ⟨.simdReg, .s128, false, .vex,
      false, .none, .none⟩, ⟨.reg, .s32, false, .ea, false, .none, .none⟩, ⟨.imm, .s8, true, .imm, false, .none, .none⟩],
      cpu := [34], pfx := 0x66, vex := some 128, suffixes := some [.l] },
    { opcode := [0x0F, 0xC4], operands := [⟨.simdReg, .s128, false, .spare, false, .none, .none⟩, ⟨.simdReg, .s128, false, .vex,
      false, .none, .none⟩, ⟨.reg, .s64, false, .ea, false, .none, .none⟩, ⟨.imm, .s8, true, .imm, false, .none, .none⟩],
      cpu := [34], opersize := 64, def64 := 64, pfx := 0x66, vex := some 128, suffixes := some [.q] },
    { opcode := [0x0F, 0xC4], operands := [⟨.simdReg, .s128, false, .spare, false, .none, .none⟩, ⟨.simdReg, .s128, false, .vex,
      false, .none, .none⟩, ⟨.mem, .s16, true, .ea, false, .none, .none⟩, ⟨.imm, .s8, true, .imm, false, .none, .none⟩],
      cpu := [34], pfx := 0x66, vex := some 128, suffixes := some [.l] } ]

/-- gen_x86_insn.py, `add_group("pmovmskb", …)` at lines 5035, 5042, 5050, 5058, 5067, 5077. -/
def pmovmskb_insn : List RawForm :=
  [ { opcode := [0x0F, 0xD7], operands := [⟨.reg, .s32, false, .spare, false, .none, .none⟩, ⟨.simdReg, .s64, false, .ea, false,
      .none, .none⟩], cpu := [14, 7], suffixes := some [.l], notavx := true },
    { opcode := [0x0F, 0xD7], operands := [⟨.reg, .s32, false, .spare, false, .none, .none⟩, ⟨.simdReg, .s128, false, .ea,
      false, .none, .none⟩], modifiers := [.setVEX], cpu := [16], pfx := 0x66, suffixes := some [.l] },
    { opcode := [0x0F, 0xD7], operands := [⟨.reg, .s32, false, .spare, false, .none, .none⟩, ⟨.simdReg, .s256, false, .ea,
      false, .none, .none⟩], cpu := [47], pfx := 0x66, vex := some 256, suffixes := some [.l] },
    { opcode := [0x0F, 0xD7], operands := [⟨.reg, .s64, false, .spare, false, .none, .none⟩, ⟨.simdReg, .s64, false, .ea, false,
      .none, .none⟩], cpu := [14, 7], opersize := 64, def64 := 64, suffixes := some [.q], notavx := true },
    { opcode := [0x0F, 0xD7], operands := [⟨.reg, .s64, false, .spare, false, .none, .none⟩, ⟨.simdReg, .s128, false, .ea,
      false, .none, .none⟩], modifiers := [.setVEX], cpu := [16], opersize := 64, def64 := 64, pfx := 0x66,
      suffixes := some [.q] },
    { opcode := [0x0F, 0xD7], operands := [⟨.reg, .s64, false, .spare, false, .none, .none⟩, ⟨.simdReg, .s256, false, .ea,
      false, .none, .none⟩], cpu := [16], opersize := 64, def64 := 64, pfx := 0x66, vex := some 256, suffixes := some [.q] } ]

/-- gen_x86_insn.py, `add_group("pshufw", …)` at lines 5091. -/
def pshufw_insn : List RawForm :=
  [ { opcode := [0x0F, 0x70], operands := [⟨.simdReg, .s64, false, .spare, false, .none, .none⟩, ⟨.simdRM, .s64, true, .ea,
      false, .none, .none⟩, ⟨.imm, .s8, true, .imm, false, .none, .none⟩], cpu := [14, 7] } ]

/-- gen_x86_insn.py, `add_group("xmm_xmm64", …)` at lines 5103, 5110, 5117, 5126. -/
def xmm_xmm64_insn : List RawForm :=
  [ { opcode := [0x0F, 0x00], operands := [⟨.simdReg, .s128, false, .spareVEX, false, .none, .none⟩, ⟨.simdReg, .s128, false,
      .ea, false, .none, .none⟩], modifiers := [.preAdd, .op1Add, .setVEX], cpu := [16] },
    { opcode := [0x0F, 0x00], operands := [⟨.simdReg, .s128, false, .spareVEX, false, .none, .none⟩, ⟨.mem, .s64, true, .ea,
      false, .none, .none⟩], modifiers := [.preAdd, .op1Add, .setVEX], cpu := [16] },
    { opcode := [0x0F, 0x00], operands := [⟨.simdReg, .s128, false, .spare, false, .none, .none⟩, ⟨.simdReg, .s128, false, .vex,
      false, .none, .none⟩, ⟨.simdReg, .s128, false, .ea, false, .none, .none⟩], modifiers := [.preAdd, .op1Add], cpu := [34],
      vex := some 128 },
    { opcode := [0x0F, 0x00], operands := [⟨.simdReg, .s128, false, .spare, false, .none, .none⟩, ⟨.simdReg, .s128, false, .vex,
      false, .none, .none⟩, ⟨.mem, .s64, true, .ea, false, .none, .none⟩], modifiers := [.preAdd, .op1Add], cpu := [34],
      vex := some 128 } ]

/-- gen_x86_insn.py, `add_group("ssecmp_64", …)` at lines 5194, 5201, 5208, 5217. -/
def ssecmp_64_insn : List RawForm :=
  [ { opcode := [0x0F, 0xC2], operands := [⟨.simdReg, .s128, false, .spareVEX, false, .none, .none⟩, ⟨.simdReg, .s128, false,
      .ea, false, .none, .none⟩], modifiers := [.imm8, .preAdd, .setVEX], cpu := [16] },
    { opcode := [0x0F, 0xC2], operands := [⟨.simdReg, .s128, false, .spareVEX, false, .none, .none⟩, ⟨.mem, .s64, true, .ea,
      false, .none, .none⟩], modifiers := [.imm8, .preAdd, .setVEX], cpu := [16] },
    { opcode := [0x0F, 0xC2], operands := [⟨.simdReg, .s128, false, .spare, false, .none, .none⟩, ⟨.simdReg, .s128, false, .vex,
      false, .none, .none⟩, ⟨.simdReg, .s128, false, .ea, false, .none, .none⟩], modifiers := [.imm8, .preAdd], cpu := [34],
      vex := some 128 },
    { opcode := [0x0F, 0xC2], operands := [⟨.simdReg, .s128, false, .spare, false, .none, .none⟩, ⟨.simdReg, .s128, false, .vex,
      false, .none, .none⟩, ⟨.mem, .s64, true, .ea, false, .none, .none⟩], modifiers := [.imm8, .preAdd], cpu := [34],
      vex := some 128 } ]

/-- gen_x86_insn.py, `add_group("cvt_rx_xmm64", …)` at lines 5243, 5251, 5260, 5269. -/
def cvt_rx_xmm64_insn : List RawForm :=
  [ { opcode := [0x0F, 0x00], operands := [⟨.reg, .s32, false, .spare, false, .none, .none⟩, ⟨.simdReg, .s128, false, .ea,
      false, .none, .none⟩], modifiers := [.preAdd, .op1Add, .setVEX], cpu := [16], suffixes := some [.l] },
    { opcode := [0x0F, 0x00], operands := [⟨.reg, .s32, false, .spare, false, .none, .none⟩, ⟨.mem, .s64, true, .ea, false,
      .none, .none⟩], modifiers := [.preAdd, .op1Add, .setVEX], cpu := [16], suffixes := some [.l] },
    { opcode := [0x0F, 0x00], operands := [⟨.reg, .s64, false, .spare, false, .none, .none⟩, ⟨.simdReg, .s128, false, .ea,
      false, .none, .none⟩], modifiers := [.preAdd, .op1Add, .setVEX], cpu := [16], opersize := 64, suffixes := some [.q] },
    { opcode := [0x0F, 0x00], operands := [⟨.reg, .s64, false, .spare, false, .none, .none⟩, ⟨.mem, .s64, true, .ea, false,
      .none, .none⟩], modifiers := [.preAdd, .op1Add, .setVEX], cpu := [16], opersize := 64, suffixes := some [.q] } ]

/-- gen_x86_insn.py, `add_group("cvt_mm_xmm", …)` at lines 5282. -/
def cvt_mm_xmm_insn : List RawForm :=
  [ { opcode := [0x0F, 0x00], operands := [⟨.simdReg, .s64, false, .spare, false, .none, .none⟩, ⟨.simdRM, .s128, true, .ea,
      false, .none, .none⟩], modifiers := [.preAdd, .op1Add], cpu := [16] } ]

/-- gen_x86_insn.py, `add_group("cvt_xmm_mm_ss", …)` at lines 5292. -/
def cvt_xmm_mm_ss_insn : List RawForm :=
  [ { opcode := [0x0F, 0x00], operands := [⟨.simdReg, .s128, false, .spare, false, .none, .none⟩, ⟨.simdRM, .s64, true, .ea,
      false, .none, .none⟩], modifiers := [.preAdd, .op1Add], cpu := [15] } ]

/-- gen_x86_insn.py, `add_group("eptvpid", …)` at lines 5396, 5406. -/
def eptvpid_insn : List RawForm :=
  [ { opcode := [0x0F, 0x38, 0x80], operands := [⟨.reg, .s32, false, .spare, false, .none, .none⟩, ⟨.mem, .s128, true, .ea,
      false, .none, .none⟩], modifiers := [.op2Add], cpu := [45], opersize := 32, pfx := 0x66, suffixes := some [.l],
      not64 := true },
    { opcode := [0x0F, 0x38, 0x80], operands := [⟨.reg, .s64, false, .spare, false, .none, .none⟩, ⟨.mem, .s128, true, .ea,
      false, .none, .none⟩], modifiers := [.op2Add], cpu := [45], opersize := 64, pfx := 0x66, suffixes := some [.q] } ]

/-- gen_x86_insn.py, `add_group("vmxmemrd", …)` at lines 5423, 5431. -/
def vmxmemrd_insn : List RawForm :=
  [ { opcode := [0x0F, 0x78], operands := [⟨.rm, .s32, true, .ea, false, .none, .none⟩, ⟨.reg, .s32, false, .spare, false,
      .none, .none⟩], cpu := [8], opersize := 32, suffixes := some [.l], not64 := true },
    { opcode := [0x0F, 0x78], operands := [⟨.rm, .s64, true, .ea, false, .none, .none⟩, ⟨.reg, .s64, false, .spare, false,
      .none, .none⟩], cpu := [8], opersize := 64, def64 := 64, suffixes := some [.q] } ]

/-- gen_x86_insn.py, `add_group("vmxmemwr", …)` at lines 5441, 5449. -/
def vmxmemwr_insn : List RawForm :=
  [ { opcode := [0x0F, 0x79], operands := [⟨.reg, .s32, false, .spare, false, .none, .none⟩, ⟨.rm, .s32, true, .ea, false,
      .none, .none⟩], cpu := [8], opersize := 32, suffixes := some [.l], not64 := true },
    { opcode := [0x0F, 0x79], operands := [⟨.reg, .s64, false, .spare, false, .none, .none⟩, ⟨.rm, .s64, true, .ea, false,
      .none, .none⟩], cpu := [8], opersize := 64, def64 := 64, suffixes := some [.q] } ]

/-- gen_x86_insn.py, `add_group("vmxtwobytemem", …)` at lines 5459. -/
def vmxtwobytemem_insn : List RawForm :=
  [ { opcode := [0x0F, 0xC7], operands := [⟨.mem, .s64, true, .ea, false, .none, .none⟩], modifiers := [.spAdd], cpu := [8] } ]

/-- gen_x86_insn.py, `add_group("vmxthreebytemem", …)` at lines 5468. -/
def vmxthreebytemem_insn : List RawForm :=
  [ { opcode := [0x0F, 0xC7], operands := [⟨.mem, .s64, true, .ea, false, .none, .none⟩], modifiers := [.preAdd], cpu := [8],
      spare := 0x6 } ]

/-- gen_x86_insn.py, `add_group("maskmovdqu", …)` at lines 5507. -/
def maskmovdqu_insn : List RawForm :=
  [ { opcode := [0x0F, 0xF7], operands := [⟨.simdReg, .s128, false, .spare, false, .none, .none⟩, ⟨.simdReg, .s128, false, .ea,
      false, .none, .none⟩], modifiers := [.setVEX], cpu := [16], pfx := 0x66 } ]

/-- gen_x86_insn.py, `add_group("movdq2q", …)` at lines 5523. -/
def movdq2q_insn : List RawForm :=
  [ { opcode := [0x0F, 0xD6], operands := [⟨.simdReg, .s64, false, .spare, false, .none, .none⟩, ⟨.simdReg, .s128, false, .ea,
      false, .none, .none⟩], cpu := [16], pfx := 0xF2 } ]

/-- gen_x86_insn.py, `add_group("movq2dq", …)` at lines 5532. -/
def movq2dq_insn : List RawForm :=
  [ { opcode := [0x0F, 0xD6], operands := [⟨.simdReg, .s128, false, .spare, false, .none, .none⟩, ⟨.simdReg, .s64, false, .ea,
      false, .none, .none⟩], cpu := [16], pfx := 0xF3 } ]

/-- gen_x86_insn.py, `add_group("pslrldq", …)` at lines 5541, 5549, 5558, 5567. -/
def pslrldq_insn : List RawForm :=
  [ { opcode := [0x0F, 0x73], operands := [⟨.simdReg, .s128, false, .eaVEX, false, .none, .none⟩, ⟨.imm, .s8, true, .imm, false,
      .none, .none⟩], modifiers := [.spAdd, .setVEX], cpu := [16], pfx := 0x66 },
    { opcode := [0x0F, 0x73], operands := [⟨.simdReg, .s128, false, .vex, false, .none, .none⟩, ⟨.simdReg, .s128, false, .ea,
      false, .none, .none⟩, ⟨.imm, .s8, true, .imm, false, .none, .none⟩], modifiers := [.spAdd, .setVEX], cpu := [16],
      pfx := 0x66 },
    { opcode := [0x0F, 0x73], operands := [⟨.simdReg, .s256, false, .eaVEX, false, .none, .none⟩, ⟨.imm, .s8, true, .imm, false,
      .none, .none⟩], modifiers := [.spAdd], cpu := [47], pfx := 0x66, vex := some 256 },
    { opcode := [0x0F, 0x73], operands := [⟨.simdReg, .s256, false, .vex, false, .none, .none⟩, ⟨.simdReg, .s256, false, .ea,
      false, .none, .none⟩, ⟨.imm, .s8, true, .imm, false, .none, .none⟩], modifiers := [.spAdd], cpu := [47], pfx := 0x66,
      vex := some 256 } ]

/-- gen_x86_insn.py, `add_group("lddqu", …)` at lines 5608, 5615. -/
def lddqu_insn : List RawForm :=
  [ { opcode := [0x0F, 0xF0], operands := [⟨.simdReg, .s128, false, .spare, false, .none, .none⟩, ⟨.mem, .s128, true, .ea,
      false, .none, .none⟩], modifiers := [.setVEX], cpu := [17], pfx := 0xF2 },
    { opcode := [0x0F, 0xF0], operands := [⟨.simdReg, .s256, false, .spare, false, .none, .none⟩, ⟨.mem, .s256, true, .ea,
      false, .none, .none⟩], cpu := [34], pfx := 0xF2, vex := some 256 } ]

/-- gen_x86_insn.py, `add_group("ssse3", …)` at lines 5630, 5637, 5644, 5653, 5661. -/
def ssse3_insn : List RawForm :=
  [ { opcode := [0x0F, 0x38, 0x00], operands := [⟨.simdReg, .s64, false, .spare, false, .none, .none⟩, ⟨.simdRM, .s64, true,
      .ea, false, .none, .none⟩], modifiers := [.op2Add], cpu := [29], notavx := true },
    { opcode := [0x0F, 0x38, 0x00], operands := [⟨.simdReg, .s128, false, .spareVEX, false, .none, .none⟩, ⟨.simdRM, .s128,
      true, .ea, false, .none, .none⟩], modifiers := [.op2Add, .setVEX], cpu := [29], pfx := 0x66 },
    { opcode := [0x0F, 0x38, 0x00], operands := [⟨.simdReg, .s128, false, .spare, false, .none, .none⟩, ⟨.simdReg, .s128, false,
      .vex, false, .none, .none⟩, ⟨.simdRM, .s128, true, .ea, false, .none, .none⟩], modifiers := [.op2Add], cpu := [34],
      pfx := 0x66, vex := some 128 },
    { opcode := [0x0F, 0x38, 0x00], operands := [⟨.simdReg, .s256, false, .spareVEX, false, .none, .none⟩, ⟨.simdRM, .s256,
      true, .ea, false, .none, .none⟩], modifiers := [.op2Add], cpu := [47], pfx := 0x66, vex := some 256 },
    { opcode := [0x0F, 0x38, 0x00], operands := [⟨.simdReg, .s256, false, .spare, false, .none, .none⟩, ⟨.simdReg, .s256, false,
      .vex, false, .none, .none⟩, ⟨.simdRM, .s256, true, .ea, false, .none, .none⟩], modifiers := [.op2Add], cpu := [47],
      pfx := 0x66, vex := some 256 } ]

/-- gen_x86_insn.py, `add_group("ssse3imm", …)` at lines 5701, 5708. -/
def ssse3imm_insn : List RawForm :=
  [ { opcode := [0x0F, 0x3A, 0x00], operands := [⟨.simdReg, .s64, false, .spare, false, .none, .none⟩, ⟨.simdRM, .s64, true,
      .ea, false, .none, .none⟩, ⟨.imm, .s8, true, .imm, false, .none, .none⟩], modifiers := [.op2Add], cpu := [29] },
    { opcode := [0x0F, 0x3A, 0x00], operands := [⟨.simdReg, .s128, false, .spare, false, .none, .none⟩, ⟨.simdRM, .s128, true,
      .ea, false, .none, .none⟩, ⟨.imm, .s8, true, .imm, false, .none, .none⟩], modifiers := [.op2Add], cpu := [29],
      pfx := 0x66 } ]

/-- gen_x86_insn.py, `add_group("sse4", …)` at lines 5724, 5731. -/
def sse4_insn : List RawForm :=
  [ { opcode := [0x0F, 0x38, 0x00], operands := [⟨.simdReg, .s128, false, .spare, false, .none, .none⟩, ⟨.simdRM, .s128, true,
      .ea, false, .none, .none⟩], modifiers := [.op2Add, .setVEX], cpu := [30], pfx := 0x66 },
    { opcode := [0x0F, 0x38, 0x00], operands := [⟨.simdReg, .s256, false, .spare, false, .none, .none⟩, ⟨.simdRM, .s256, true,
      .ea, false, .none, .none⟩], modifiers := [.op2Add], cpu := [34], pfx := 0x66, vex := some 256 } ]

/-- gen_x86_insn.py, `add_group("sse4imm_256", …)` at lines 5774, 5782, 5792, 5801. -/
def sse4imm_256_insn : List RawForm :=
  [ { opcode := [0x0F, 0x3A, 0x00], operands := [⟨.simdReg, .s128, false, .spareVEX, false, .none, .none⟩, ⟨.simdRM, .s128,
      true, .ea, false, .none, .none⟩, ⟨.imm, .s8, true, .imm, false, .none, .none⟩], modifiers := [.op2Add, .setVEX],
      cpu := [30], pfx := 0x66 },
    { opcode := [0x0F, 0x3A, 0x00], operands := [⟨.simdReg, .s128, false, .spare, false, .none, .none⟩, ⟨.simdReg, .s128, false,
      .vex, false, .none, .none⟩, ⟨.simdRM, .s128, true, .ea, false, .none, .none⟩, ⟨.imm, .s8, true, .imm, false, .none,
      .none⟩], modifiers := [.op2Add], cpu := [34], pfx := 0x66, vex := some 128 },
    { opcode := [0x0F, 0x3A, 0x00], operands := [⟨.simdReg, .s256, false, .spareVEX, false, .none, .none⟩, ⟨.simdRM, .s256,
      true, .ea, false, .none, .none⟩, ⟨.imm, .s8, true, .imm, false, .none, .none⟩], modifiers := [.op2Add], cpu := [34],
      pfx := 0x66, vex := some 256 },
    { opcode := [0x0F, 0x3A, 0x00], operands := [⟨.simdReg, .s256, false, .spare, false, .none, .none⟩, ⟨.simdReg, .s256, false,
      .vex, false, .none, .none⟩, ⟨.simdRM, .s256, true, .ea, false, .none, .none⟩, ⟨.imm, .s8, true, .imm, false, .none,
      .none⟩], modifiers := [.op2Add], cpu := [34], pfx := 0x66, vex := some 256 } ]

/-- gen_x86_insn.py, `add_group("sse4imm_256avx2", …)` at lines 5813, 5821, 5831, 5840. -/
def sse4imm_256avx2_insn : List RawForm :=
  [ { opcode := [0x0F, 0x3A, 0x00], operands := [⟨.simdReg, .s128, false, .spareVEX, false, .none, .none⟩, ⟨.simdRM, .s128,
      true, .ea, false, .none, .none⟩, ⟨.imm, .s8, true, .imm, false, .none, .none⟩], modifiers := [.op2Add, .setVEX],
      cpu := [30], pfx := 0x66 },
    { opcode := [0x0F, 0x3A, 0x00], operands := [⟨.simdReg, .s128, false, .spare, false, .none, .none⟩, ⟨.simdReg, .s128, false,
      .vex, false, .none, .none⟩, ⟨.simdRM, .s128, true, .ea, false, .none, .none⟩, ⟨.imm, .s8, true, .imm, false, .none,
      .none⟩], modifiers := [.op2Add], cpu := [34], pfx := 0x66, vex := some 128 },
    { opcode := [0x0F, 0x3A, 0x00], operands := [⟨.simdReg, .s256, false, .spareVEX, false, .none, .none⟩, ⟨.simdRM, .s256,
      true, .ea, false, .none, .none⟩, ⟨.imm, .s8, true, .imm, false, .none, .none⟩], modifiers := [.op2Add], cpu := [47],
      pfx := 0x66, vex := some 256 },
    { opcode := [0x0F, 0x3A, 0x00], operands := [⟨.simdReg, .s256, false, .spare, false, .none, .none⟩, ⟨.simdReg, .s256, false,
      .vex, false, .none, .none⟩, ⟨.simdRM, .s256, true, .ea, false, .none, .none⟩, ⟨.imm, .s8, true, .imm, false, .none,
      .none⟩], modifiers := [.op2Add], cpu := [47], pfx := 0x66, vex := some 256 } ]

/-- gen_x86_insn.py, `add_group("sse4imm", …)` at lines 5852, 5860. -/
def sse4imm_insn : List RawForm :=
  [ { opcode := [0x0F, 0x3A, 0x00], operands := [⟨.simdReg, .s128, false, .spareVEX, false, .none, .none⟩, ⟨.simdRM, .s128,
      true, .ea, false, .none, .none⟩, ⟨.imm, .s8, true, .imm, false, .none, .none⟩], modifiers := [.op2Add, .setVEX],
      cpu := [30], pfx := 0x66 },
    { opcode := [0x0F, 0x3A, 0x00], operands := [⟨.simdReg, .s128, false, .spare, false, .none, .none⟩, ⟨.simdReg, .s128, false,
      .vex, false, .none, .none⟩, ⟨.simdRM, .s128, true, .ea, false, .none, .none⟩, ⟨.imm, .s8, true, .imm, false, .none,
      .none⟩], modifiers := [.op2Add], cpu := [34], pfx := 0x66, vex := some 128 } ]

/-- gen_x86_insn.py, `add_group("sse4m32imm", …)` at lines 5872, 5880, 5888, 5898. -/
def sse4m32imm_insn : List RawForm :=
  [ { opcode := [0x0F, 0x3A, 0x00], operands := [⟨.simdReg, .s128, false, .spareVEX, false, .none, .none⟩, ⟨.simdReg, .s128,
      false, .ea, false, .none, .none⟩, ⟨.imm, .s8, true, .imm, false, .none, .none⟩], modifiers := [.op2Add, .setVEX],
      cpu := [30], pfx := 0x66 },
    { opcode := [0x0F, 0x3A, 0x00], operands := [⟨.simdReg, .s128, false, .spareVEX, false, .none, .none⟩, ⟨.mem, .s32, true,
      .ea, false, .none, .none⟩, ⟨.imm, .s8, true, .imm, false, .none, .none⟩], modifiers := [.op2Add, .setVEX], cpu := [30],
      pfx := 0x66 },
    { opcode := [0x0F, 0x3A, 0x00], operands := [⟨.simdReg, .s128, false, .spare, false, .none, .none⟩, ⟨.simdReg, .s128, false,
      .vex, false, .none, .none⟩, ⟨.simdReg, .s128, false, .ea, false, .none, .none⟩, ⟨.imm, .s8, true, .imm, false, .none,
      .none⟩], modifiers := [.op2Add], cpu := [34], pfx := 0x66, vex := some 128 },
    { opcode := [0x0F, 0x3A, 0x00], operands := [⟨.simdReg, .s128, false, .spare, false, .none, .none⟩, ⟨.simdReg, .s128, false,
      .vex, false, .none, .none⟩, ⟨.mem, .s32, true, .ea, false, .none, .none⟩, ⟨.imm, .s8, true, .imm, false, .none, .none⟩],
      modifiers := [.op2Add], cpu := [34], pfx := 0x66, vex := some 128 } ]

/-- gen_x86_insn.py, `add_group("sse4m64imm", …)` at lines 5872, 5880, 5888, 5898. -/
def sse4m64imm_insn : List RawForm :=
  [ { opcode := [0x0F, 0x3A, 0x00], operands := [⟨.simdReg, .s128, false, .spareVEX, false, .none, .none⟩, ⟨.simdReg, .s128,
      false, .ea, false, .none, .none⟩, ⟨.imm, .s8, true, .imm, false, .none, .none⟩], modifiers := [.op2Add, .setVEX],
      cpu := [30], pfx := 0x66 },
    { opcode := [0x0F, 0x3A, 0x00], operands := [⟨.simdReg, .s128, false, .spareVEX, false, .none, .none⟩, ⟨.mem, .s64, true,
      .ea, false, .none, .none⟩, ⟨.imm, .s8, true, .imm, false, .none, .none⟩], modifiers := [.op2Add, .setVEX], cpu := [30],
      pfx := 0x66 },
    { opcode := [0x0F, 0x3A, 0x00], operands := [⟨.simdReg, .s128, false, .spare, false, .none, .none⟩, ⟨.simdReg, .s128, false,
      .vex, false, .none, .none⟩, ⟨.simdReg, .s128, false, .ea, false, .none, .none⟩, ⟨.imm, .s8, true, .imm, false, .none,
      .none⟩], modifiers := [.op2Add], cpu := [34], pfx := 0x66, vex := some 128 },
    { opcode := [0x0F, 0x3A, 0x00], operands := [⟨.simdReg, .s128, false, .spare, false, .none, .none⟩, ⟨.simdReg, .s128, false,
      .vex, false, .none, .none⟩, ⟨.mem, .s64, true, .ea, false, .none, .none⟩, ⟨.imm, .s8, true, .imm, false, .none, .none⟩],
      modifiers := [.op2Add], cpu := [34], pfx := 0x66, vex := some 128 } ]

/-- gen_x86_insn.py, `add_group("sse4xmm0", …)` at lines 5932, 5939. -/
def sse4xmm0_insn : List RawForm :=
  [ { opcode := [0x0F, 0x38, 0x00], operands := [⟨.simdReg, .s128, false, .spare, false, .none, .none⟩, ⟨.simdRM, .s128, true,
      .ea, false, .none, .none⟩], modifiers := [.op2Add], cpu := [30], pfx := 0x66 },
    { opcode := [0x0F, 0x38, 0x00], operands := [⟨.simdReg, .s128, false, .spare, false, .none, .none⟩, ⟨.simdRM, .s128, true,
      .ea, false, .none, .none⟩, ⟨.xmm0, .s128, false, .none, false, .none, .none⟩], modifiers := [.op2Add], cpu := [30],
      pfx := 0x66 } ]

/-- gen_x86_insn.py, `add_group("avx_sse4xmm0", …)` at lines 5953, 5963. -/
def avx_sse4xmm0_insn : List RawForm :=
  [ { opcode := [0x0F, 0x3A, 0x00], operands := [⟨.simdReg, .s128, false, .spare, false, .none, .none⟩, ⟨.simdReg, .s128, false,
      .vex, false, .none, .none⟩, ⟨.simdRM, .s128, true, .ea, false, .none, .none⟩, ⟨.simdReg, .s128, false, .vexImmSrc, false,
      .none, .none⟩], modifiers := [.op2Add], cpu := [34], pfx := 0x66, vex := some 128 },
    { opcode := [0x0F, 0x3A, 0x00], operands := [⟨.simdReg, .s256, false, .spare, false, .none, .none⟩, ⟨.simdReg, .s256, false,
      .vex, false, .none, .none⟩, ⟨.simdRM, .s256, true, .ea, false, .none, .none⟩, ⟨.simdReg, .s256, false, .vexImmSrc, false,
      .none, .none⟩], modifiers := [.op2Add], cpu := [34], pfx := 0x66, vex := some 256 } ]

/-- gen_x86_insn.py, `add_group("avx2_sse4xmm0", …)` at lines 5978, 5988. -/
def avx2_sse4xmm0_insn : List RawForm :=
  [ { opcode := [0x0F, 0x3A, 0x00], operands := [⟨.simdReg, .s128, false, .spare, false, .none, .none⟩, ⟨.simdReg, .s128, false,
      .vex, false, .none, .none⟩, ⟨.simdRM, .s128, true, .ea, false, .none, .none⟩, ⟨.simdReg, .s128, false, .vexImmSrc, false,
      .none, .none⟩], modifiers := [.op2Add], cpu := [34], pfx := 0x66, vex := some 128 },
    { opcode := [0x0F, 0x3A, 0x00], operands := [⟨.simdReg, .s256, false, .spare, false, .none, .none⟩, ⟨.simdReg, .s256, false,
      .vex, false, .none, .none⟩, ⟨.simdRM, .s256, true, .ea, false, .none, .none⟩, ⟨.simdReg, .s256, false, .vexImmSrc, false,
      .none, .none⟩], modifiers := [.op2Add], cpu := [47], pfx := 0x66, vex := some 256 } ]

/-- gen_x86_insn.py, `add_group("crc32", …)` at lines 6002, 6011. -/
def crc32_insn : List RawForm :=
  [ { opcode := [0x0F, 0x38, 0xF0], operands := [⟨.reg, .s32, false, .spare, false, .none, .none⟩, ⟨.rm, .s8, false, .ea, false,
      .none, .none⟩], cpu := [31], opersize := 8, pfx := 0xF2, suffixes := some [.b] },
    { opcode := [0x0F, 0x38, 0xF1], operands := [⟨.reg, .s32, false, .spare, false, .none, .none⟩, ⟨.rm, .s16, false, .ea,
      false, .none, .none⟩], cpu := [31], opersize := 16, pfx := 0xF2, suffixes := some [.w] },
    { opcode := [0x0F, 0x38, 0xF1], operands := [⟨.reg, .s32, false, .spare, false, .none, .none⟩, ⟨.rm, .s32, true, .ea, false,
      .none, .none⟩], cpu := [31], opersize := 32, pfx := 0xF2, suffixes := some [.l] },
    { opcode := [0x0F, 0x38, 0xF0], operands := [⟨.reg, .s64, false, .spare, false, .none, .none⟩, ⟨.rm, .s8, false, .ea, false,
      .none, .none⟩], cpu := [31], opersize := 64, pfx := 0xF2, suffixes := some [.b] },
    { opcode := [0x0F, 0x38, 0xF1], operands := [⟨.reg, .s64, false, .spare, false, .none, .none⟩, ⟨.rm, .s64, true, .ea, false,
      .none, .none⟩], cpu := [31], opersize := 64, pfx := 0xF2, suffixes := some [.q] } ]

/-- gen_x86_insn.py, `add_group("extractps", …)` at lines 6022, 6030. -/
def extractps_insn : List RawForm :=
  [ { opcode := [0x0F, 0x3A, 0x17], operands := [⟨.rm, .s32, true, .ea, false, .none, .none⟩, ⟨.simdReg, .s128, false, .spare,
      false, .none, .none⟩, ⟨.imm, .s8, true, .imm, false, .none, .none⟩], modifiers := [.setVEX], cpu := [30], pfx := 0x66 },
    { opcode := [0x0F, 0x3A, 0x17], operands := [⟨.reg, .s64, false, .ea, false, .none, .none⟩, ⟨.simdReg, .s128, false, .spare,
      false, .none, .none⟩, ⟨.imm, .s8, true, .imm, false, .none, .none⟩], modifiers := [.setVEX], cpu := [30], opersize := 64,
      pfx := 0x66 } ]

/-- gen_x86_insn.py, `add_group("insertps", …)` at lines 6043, 6051, 6059, 6068. -/
def insertps_insn : List RawForm :=
  [ { opcode := [0x0F, 0x3A, 0x21], operands := [⟨.simdReg, .s128, false, .spareVEX, false, .none, .none⟩, ⟨.mem, .s32, true,
      .ea, false, .none, .none⟩, ⟨.imm, .s8, true, .imm, false, .none, .none⟩], modifiers := [.setVEX], cpu := [30],
      pfx := 0x66 },
    { opcode := [0x0F, 0x3A, 0x21], operands := [⟨.simdReg, .s128, false, .spareVEX, false, .none, .none⟩, ⟨.simdReg, .s128,
      false, .ea, false, .none, .none⟩, ⟨.imm, .s8, true, .imm, false, .none, .none⟩], modifiers := [.setVEX], cpu := [30],
      pfx := 0x66 },
    { opcode := [0x0F, 0x3A, 0x21], operands := [⟨.simdReg, .s128, false, .spare, false, .none, .none⟩, ⟨.simdReg, .s128, false,
      .vex, false, .none, .none⟩, ⟨.mem, .s32, true, .ea, false, .none, .none⟩, ⟨.imm, .s8, true, .imm, false, .none, .none⟩],
      cpu := [34], pfx := 0x66, vex := some 128 },
    { opcode := [0x0F, 0x3A, 0x21], operands := [⟨.simdReg, .s128, false, .spare, false, .none, .none⟩, ⟨.simdReg, .s128, false,
      .vex, false, .none, .none⟩, ⟨.simdReg, .s128, false, .ea, false, .none, .none⟩, ⟨.imm, .s8, true, .imm, false, .none,
      .none⟩], cpu := [34], pfx := 0x66, vex := some 128 } ]

/-- gen_x86_insn.py, `add_group("movntdqa", …)` at lines 6081, 6088. -/
def movntdqa_insn : List RawForm :=
  [ { opcode := [0x0F, 0x38, 0x2A], operands := [⟨.simdReg, .s128, false, .spare, false, .none, .none⟩, ⟨.mem, .s128, true, .ea,
      false, .none, .none⟩], modifiers := [.setVEX], cpu := [30], pfx := 0x66 },
    { opcode := [0x0F, 0x38, 0x2A], operands := [⟨.simdReg, .s256, false, .spare, false, .none, .none⟩, ⟨.mem, .s256, true, .ea,
      false, .none, .none⟩], cpu := [47], pfx := 0x66, vex := some 256 } ]

/-- gen_x86_insn.py, `add_group("sse4pcmpstr", …)` at lines 6099. -/
def sse4pcmpstr_insn : List RawForm :=
  [ { opcode := [0x0F, 0x3A, 0x00], operands := [⟨.simdReg, .s128, false, .spare, false, .none, .none⟩, ⟨.simdRM, .s128, true,
      .ea, false, .none, .none⟩, ⟨.imm, .s8, true, .imm, false, .none, .none⟩], modifiers := [.op2Add, .setVEX], cpu := [31],
      pfx := 0x66 } ]

/-- gen_x86_insn.py, `add_group("pextrb", …)` at lines 6118, 6126, 6134. -/
def pextrb_insn : List RawForm :=
  [ { opcode := [0x0F, 0x3A, 0x14], operands := [⟨.mem, .s8, true, .ea, false, .none, .none⟩, ⟨.simdReg, .s128, false, .spare,
      false, .none, .none⟩, ⟨.imm, .s8, true, .imm, false, .none, .none⟩], modifiers := [.setVEX], cpu := [30], pfx := 0x66 },
    { opcode := [0x0F, 0x3A, 0x14], operands := [⟨.reg, .s32, false, .ea, false, .none, .none⟩, ⟨.simdReg, .s128, false, .spare,
      false, .none, .none⟩, ⟨.imm, .s8, true, .imm, false, .none, .none⟩], modifiers := [.setVEX], cpu := [30], pfx := 0x66 },
    { opcode := [0x0F, 0x3A, 0x14], operands := [⟨.reg, .s64, false, .ea, false, .none, .none⟩, ⟨.simdReg, .s128, false, .spare,
      false, .none, .none⟩, ⟨.imm, .s8, true, .imm, false, .none, .none⟩], modifiers := [.setVEX], cpu := [30], opersize := 64,
      pfx := 0x66 } ]

/-- gen_x86_insn.py, `add_group("pextrd", …)` at lines 6147. -/
def pextrd_insn : List RawForm :=
  [ { opcode := [0x0F, 0x3A, 0x16], operands := [⟨.rm, .s32, true, .ea, false, .none, .none⟩, ⟨.simdReg, .s128, false, .spare,
      false, .none, .none⟩, ⟨.imm, .s8, true, .imm, false, .none, .none⟩], modifiers := [.setVEX], cpu := [30], pfx := 0x66 } ]

/-- gen_x86_insn.py, `add_group("pextrq", …)` at lines 6159. -/
def pextrq_insn : List RawForm :=
  [ { opcode := [0x0F, 0x3A, 0x16], operands := [⟨.rm, .s64, true, .ea, false, .none, .none⟩, ⟨.simdReg, .s128, false, .spare,
      false, .none, .none⟩, ⟨.imm, .s8, true, .imm, false, .none, .none⟩], modifiers := [.setVEX], cpu := [30], opersize := 64,
      pfx := 0x66 } ]

/-- gen_x86_insn.py, `add_group("pinsrb", …)` at lines 6172, 6180, 6188, 6197. -/
def pinsrb_insn : List RawForm :=
  [ { opcode := [0x0F, 0x3A, 0x20], operands := [⟨.simdReg, .s128, false, .spareVEX, false, .none, .none⟩, ⟨.mem, .s8, true,
      .ea, false, .none, .none⟩, ⟨.imm, .s8, true, .imm, false, .none, .none⟩], modifiers := [.setVEX], cpu := [30],
      pfx := 0x66 },
    { opcode := [0x0F, 0x3A, 0x20], operands := [⟨.simdReg, .s128, false, .spareVEX, false, .none, .none⟩, ⟨.reg, .s32, false,
      .ea, false, .none, .none⟩, ⟨.imm, .s8, true, .imm, false, .none, .none⟩], modifiers := [.setVEX], cpu := [30],
      pfx := 0x66 },
    { opcode := [0x0F, 0x3A, 0x20], operands := [⟨.simdReg, .s128, false, .spare, false, .none, .none⟩, ⟨.simdReg, .s128, false,
      .vex, false, .none, .none⟩, ⟨.mem, .s8, true, .ea, false, .none, .none⟩, ⟨.imm, .s8, true, .imm, false, .none, .none⟩],
      cpu := [34], pfx := 0x66, vex := some 128 },
    { opcode := [0x0F, 0x3A, 0x20], operands := [⟨.simdReg, .s128, false, .spareVEX, false, .none, .none⟩, ⟨.simdReg, .s128,
      false, .vex, false, .none, .none⟩, ⟨.reg, .s32, false, .ea, false, .none, .none⟩, ⟨.imm, .s8, true, .imm, false, .none,
      .none⟩], cpu := [34], pfx := 0x66, vex := some 128 } ]

/-- gen_x86_insn.py, `add_group("pinsrd", …)` at lines 6210, 6218. -/
def pinsrd_insn : List RawForm :=
  [ { opcode := [0x0F, 0x3A, 0x22], operands := [⟨.simdReg, .s128, false, .spareVEX, false, .none, .none⟩, ⟨.rm, .s32, true,
      .ea, false, .none, .none⟩, ⟨.imm, .s8, true, .imm, false, .none, .none⟩], modifiers := [.setVEX], cpu := [30],
      pfx := 0x66 },
    { opcode := [0x0F, 0x3A, 0x22], operands := [⟨.simdReg, .s128, false, .spare, false, .none, .none⟩, ⟨.simdReg, .s128, false,
      .vex, false, .none, .none⟩, ⟨.rm, .s32, true, .ea, false, .none, .none⟩, ⟨.imm, .s8, true, .imm, false, .none, .none⟩],
      cpu := [34], pfx := 0x66, vex := some 128 } ]

/-- gen_x86_insn.py, `add_group("pinsrq", …)` at lines 6231, 6240. -/
def pinsrq_insn : List RawForm :=
  [ { opcode := [0x0F, 0x3A, 0x22], operands := [⟨.simdReg, .s128, false, .spareVEX, false, .none, .none⟩, ⟨.rm, .s64, true,
      .ea, false, .none, .none⟩, ⟨.imm, .s8, true, .imm, false, .none, .none⟩], modifiers := [.setVEX], cpu := [30],
      opersize := 64, pfx := 0x66 },
    { opcode := [0x0F, 0x3A, 0x22], operands := [⟨.simdReg, .s128, false, .spareVEX, false, .none, .none⟩, ⟨.simdReg, .s128,
      false, .vex, false, .none, .none⟩, ⟨.rm, .s64, true, .ea, false, .none, .none⟩, ⟨.imm, .s8, true, .imm, false, .none,
      .none⟩], cpu := [34], opersize := 64, pfx := 0x66, vex := some 128 } ]

/-- gen_x86_insn.py, `add_group("sse4m16", …)` at lines 6255, 6262, 6269, 6277. -/
def sse4m16_insn : List RawForm :=
  [ { opcode := [0x0F, 0x38, 0x00], operands := [⟨.simdReg, .s128, false, .spare, false, .none, .none⟩, ⟨.mem, .s16, true, .ea,
      false, .none, .none⟩], modifiers := [.op2Add, .setVEX], cpu := [30], pfx := 0x66 },
    { opcode := [0x0F, 0x38, 0x00], operands := [⟨.simdReg, .s128, false, .spare, false, .none, .none⟩, ⟨.simdReg, .s128, false,
      .ea, false, .none, .none⟩], modifiers := [.op2Add, .setVEX], cpu := [30], pfx := 0x66 },
    { opcode := [0x0F, 0x38, 0x00], operands := [⟨.simdReg, .s256, false, .spare, false, .none, .none⟩, ⟨.mem, .s32, true, .ea,
      false, .none, .none⟩], modifiers := [.op2Add], cpu := [47], pfx := 0x66, vex := some 256 },
    { opcode := [0x0F, 0x38, 0x00], operands := [⟨.simdReg, .s256, false, .spare, false, .none, .none⟩, ⟨.simdReg, .s128, false,
      .ea, false, .none, .none⟩], modifiers := [.op2Add], cpu := [47], pfx := 0x66, vex := some 256 } ]

/-- gen_x86_insn.py, `add_group("sse4m32", …)` at lines 6255, 6262, 6269, 6277. -/
def sse4m32_insn : List RawForm :=
  [ { opcode := [0x0F, 0x38, 0x00], operands := [⟨.simdReg, .s128, false, .spare, false, .none, .none⟩, ⟨.mem, .s32, true, .ea,
      false, .none, .none⟩], modifiers := [.op2Add, .setVEX], cpu := [30], pfx := 0x66 },
    { opcode := [0x0F, 0x38, 0x00], operands := [⟨.simdReg, .s128, false, .spare, false, .none, .none⟩, ⟨.simdReg, .s128, false,
      .ea, false, .none, .none⟩], modifiers := [.op2Add, .setVEX], cpu := [30], pfx := 0x66 },
    { opcode := [0x0F, 0x38, 0x00], operands := [⟨.simdReg, .s256, false, .spare, false, .none, .none⟩, ⟨.mem, .s64, true, .ea,
      false, .none, .none⟩], modifiers := [.op2Add], cpu := [47], pfx := 0x66, vex := some 256 },
    { opcode := [0x0F, 0x38, 0x00], operands := [⟨.simdReg, .s256, false, .spare, false, .none, .none⟩, ⟨.simdReg, .s128, false,
      .ea, false, .none, .none⟩], modifiers := [.op2Add], cpu := [47], pfx := 0x66, vex := some 256 } ]

/-- gen_x86_insn.py, `add_group("sse4m64", …)` at lines 6255, 6262, 6269, 6277. -/
def sse4m64_insn : List RawForm :=
  [ { opcode := [0x0F, 0x38, 0x00], operands := [⟨.simdReg, .s128, false, .spare, false, .none, .none⟩, ⟨.mem, .s64, true, .ea,
      false, .none, .none⟩], modifiers := [.op2Add, .setVEX], cpu := [30], pfx := 0x66 },
    { opcode := [0x0F, 0x38, 0x00], operands := [⟨.simdReg, .s128, false, .spare, false, .none, .none⟩, ⟨.simdReg, .s128, false,
      .ea, false, .none, .none⟩], modifiers := [.op2Add, .setVEX], cpu := [30], pfx := 0x66 },
    { opcode := [0x0F, 0x38, 0x00], operands := [⟨.simdReg, .s256, false, .spare, false, .none, .none⟩, ⟨.mem, .s128, true, .ea,
      false, .none, .none⟩], modifiers := [.op2Add], cpu := [47], pfx := 0x66, vex := some 256 },
    { opcode := [0x0F, 0x38, 0x00], operands := [⟨.simdReg, .s256, false, .spare, false, .none, .none⟩, ⟨.simdReg, .s128, false,
      .ea, false, .none, .none⟩], modifiers := [.op2Add], cpu := [47], pfx := 0x66, vex := some 256 } ]

/-- gen_x86_insn.py, `add_group("cnt", …)` at lines 6317. -/
def cnt_insn : List RawForm :=
  [ { opcode := [0x0F, 0x00], operands := [⟨.reg, .s16, false, .spare, false, .none, .none⟩, ⟨.rm, .s16, true, .ea, false,
      .none, .none⟩], modifiers := [.op1Add], opersize := 16, pfx := 0xF3, suffixes := some [.w] },
    { opcode := [0x0F, 0x00], operands := [⟨.reg, .s32, false, .spare, false, .none, .none⟩, ⟨.rm, .s32, true, .ea, false,
      .none, .none⟩], modifiers := [.op1Add], opersize := 32, pfx := 0xF3, suffixes := some [.l] },
    { opcode := [0x0F, 0x00], operands := [⟨.reg, .s64, false, .spare, false, .none, .none⟩, ⟨.rm, .s64, true, .ea, false,
      .none, .none⟩], modifiers := [.op1Add], opersize := 64, pfx := 0xF3, suffixes := some [.q] } ]

/-- The groups of this file. -/
def groups5 : List (List RawForm) :=
  [pinsrw_insn, pmovmskb_insn, pshufw_insn, xmm_xmm64_insn, ssecmp_64_insn, cvt_rx_xmm64_insn, cvt_mm_xmm_insn,
    cvt_xmm_mm_ss_insn, eptvpid_insn, vmxmemrd_insn, vmxmemwr_insn, vmxtwobytemem_insn, vmxthreebytemem_insn,
    maskmovdqu_insn, movdq2q_insn, movq2dq_insn, pslrldq_insn, lddqu_insn, ssse3_insn, ssse3imm_insn, sse4_insn,
    sse4imm_256_insn, sse4imm_256avx2_insn, sse4imm_insn, sse4m32imm_insn, sse4m64imm_insn, sse4xmm0_insn,
    avx_sse4xmm0_insn, avx2_sse4xmm0_insn, crc32_insn, extractps_insn, insertps_insn, movntdqa_insn, sse4pcmpstr_insn,
    pextrb_insn, pextrd_insn, pextrq_insn, pinsrb_insn, pinsrd_insn, pinsrq_insn, sse4m16_insn, sse4m32_insn,
    sse4m64_insn, cnt_insn]

end Verif.Match
