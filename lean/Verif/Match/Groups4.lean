/-
The table of modules/arch/x86/gen_x86_insn.py: the calls of `add_group`, with its loops written out.  Made by reading the syntax tree
of the script; nothing but literals and the arithmetic on them is evaluated.
-/
import Verif.Match.Gen

namespace Verif.Match

/-- gen_x86_insn.py, `add_group("fstsw", …)` at lines 3619, 3625. -/
def fstsw_insn : List RawForm :=
  [ { opcode := [0x9B, 0xDD], operands := [⟨.mem, .s16, true, .ea, false, .none, .none⟩], cpu := [13], spare := 0x7,
      suffixes := some [.w] },
    { opcode := [0x9B, 0xDF, 0xE0], operands := [⟨.areg, .s16, false, .none, false, .none, .none⟩], cpu := [13],
      suffixes := some [.w] } ]

/-- gen_x86_insn.py, `add_group("ffree", …)` at lines 3633. -/
def ffree_insn : List RawForm :=
  [ { opcode := [0x00, 0xC0], operands := [⟨.reg, .s80, false, .op1Add, false, .none, .none⟩], modifiers := [.op0Add],
      cpu := [13] } ]

/-- gen_x86_insn.py, `add_group("bswap", …)` at lines 3645, 3651. -/
def bswap_insn : List RawForm :=
  [ { opcode := [0x0F, 0xC8], operands := [⟨.reg, .s32, false, .op1Add, false, .none, .none⟩], cpu := [4], opersize := 32,
      suffixes := some [.l] },
    { opcode := [0x0F, 0xC8], operands := [⟨.reg, .s64, false, .op1Add, false, .none, .none⟩], opersize := 64,
      suffixes := some [.q] } ]

/-- gen_x86_insn.py, `add_group("cmpxchgxadd", …)` at lines 3660. -/
def cmpxchgxadd_insn : List RawForm :=
  [ { opcode := [0x0F, 0x00], operands := [⟨.rm, .s8, true, .ea, false, .none, .none⟩, ⟨.reg, .s8, false, .spare, false, .none,
      .none⟩], modifiers := [.op1Add], cpu := [4], opersize := 8, suffixes := some [.b] },
    { opcode := [0x0F, 0x01], operands := [⟨.rm, .s16, true, .ea, false, .none, .none⟩, ⟨.reg, .s16, false, .spare, false,
      .none, .none⟩], modifiers := [.op1Add], cpu := [4], opersize := 16, suffixes := some [.w] },
    { opcode := [0x0F, 0x01], operands := [⟨.rm, .s32, true, .ea, false, .none, .none⟩, ⟨.reg, .s32, false, .spare, false,
      .none, .none⟩], modifiers := [.op1Add], cpu := [4], opersize := 32, suffixes := some [.l] },
    { opcode := [0x0F, 0x01], operands := [⟨.rm, .s64, true, .ea, false, .none, .none⟩, ⟨.reg, .s64, false, .spare, false,
      .none, .none⟩], modifiers := [.op1Add], cpu := [4], opersize := 64, suffixes := some [.q] } ]

/-- gen_x86_insn.py, `add_group("cmpxchg8b", …)` at lines 3691. -/
def cmpxchg8b_insn : List RawForm :=
  [ { opcode := [0x0F, 0xC7], operands := [⟨.mem, .s64, true, .ea, false, .none, .none⟩], cpu := [5], spare := 0x1,
      suffixes := some [.q] } ]

/-- gen_x86_insn.py, `add_group("cmovcc", …)` at lines 3717. -/
def cmovcc_insn : List RawForm :=
  [ { opcode := [0x0F, 0x40], operands := [⟨.reg, .s16, false, .spare, false, .none, .none⟩, ⟨.rm, .s16, true, .ea, false,
      .none, .none⟩], modifiers := [.op1Add], cpu := [6], opersize := 16, suffixes := some [.w] },
    { opcode := [0x0F, 0x40], operands := [⟨.reg, .s32, false, .spare, false, .none, .none⟩, ⟨.rm, .s32, true, .ea, false,
      .none, .none⟩], modifiers := [.op1Add], cpu := [6], opersize := 32, suffixes := some [.l] },
    { opcode := [0x0F, 0x40], operands := [⟨.reg, .s64, false, .spare, false, .none, .none⟩, ⟨.rm, .s64, true, .ea, false,
      .none, .none⟩], modifiers := [.op1Add], cpu := [6], opersize := 64, suffixes := some [.q] } ]

/-- gen_x86_insn.py, `add_group("fcmovcc", …)` at lines 3757. -/
def fcmovcc_insn : List RawForm :=
  [ { opcode := [0x00, 0x00], operands := [⟨.st0, .s80, false, .none, false, .none, .none⟩, ⟨.reg, .s80, false, .op1Add, false,
      .none, .none⟩], modifiers := [.op0Add, .op1Add], cpu := [13, 6] } ]

/-- gen_x86_insn.py, `add_group("movnti", …)` at lines 3781, 3787. -/
def movnti_insn : List RawForm :=
  [ { opcode := [0x0F, 0xC3], operands := [⟨.mem, .s32, true, .ea, false, .none, .none⟩, ⟨.reg, .s32, false, .spare, false,
      .none, .none⟩], cpu := [8], suffixes := some [.l] },
    { opcode := [0x0F, 0xC3], operands := [⟨.mem, .s64, true, .ea, false, .none, .none⟩, ⟨.reg, .s64, false, .spare, false,
      .none, .none⟩], cpu := [8], opersize := 64, suffixes := some [.q] } ]

/-- gen_x86_insn.py, `add_group("clflush", …)` at lines 3797. -/
def clflush_insn : List RawForm :=
  [ { opcode := [0x0F, 0xAE], operands := [⟨.mem, .s8, true, .ea, false, .none, .none⟩], cpu := [7], spare := 0x7 } ]

/-- gen_x86_insn.py, `add_group("movd", …)` at lines 3818, 3823, 3829, 3834, 3840, 3846, 3853, 3859. -/
def movd_insn : List RawForm :=
  [ { opcode := [0x0F, 0x6E], operands := [⟨.simdReg, .s64, false, .spare, false, .none, .none⟩, ⟨.rm, .s32, true, .ea, false,
      .none, .none⟩], cpu := [14] },
    { opcode := [0x0F, 0x6E], operands := [⟨.simdReg, .s64, false, .spare, false, .none, .none⟩, ⟨.rm, .s64, true, .ea, false,
      .none, .none⟩], cpu := [14], opersize := 64 },
    { opcode := [0x0F, 0x7E], operands := [⟨.rm, .s32, true, .ea, false, .none, .none⟩, ⟨.simdReg, .s64, false, .spare, false,
      .none, .none⟩], cpu := [14] },
    { opcode := [0x0F, 0x7E], operands := [⟨.rm, .s64, true, .ea, false, .none, .none⟩, ⟨.simdReg, .s64, false, .spare, false,
      .none, .none⟩], cpu := [14], opersize := 64 },
    { opcode := [0x0F, 0x6E], operands := [⟨.simdReg, .s128, false, .spare, false, .none, .none⟩, ⟨.rm, .s32, true, .ea, false,
      .none, .none⟩], cpu := [16], pfx := 0x66 },
    { opcode := [0x0F, 0x6E], operands := [⟨.simdReg, .s128, false, .spare, false, .none, .none⟩, ⟨.rm, .s64, true, .ea, false,
      .none, .none⟩], cpu := [16], opersize := 64, pfx := 0x66 },
    { opcode := [0x0F, 0x7E], operands := [⟨.rm, .s32, true, .ea, false, .none, .none⟩, ⟨.simdReg, .s128, false, .spare, false,
      .none, .none⟩], cpu := [16], pfx := 0x66 },
    { opcode := [0x0F, 0x7E], operands := [⟨.rm, .s64, true, .ea, false, .none, .none⟩, ⟨.simdReg, .s128, false, .spare, false,
      .none, .none⟩], cpu := [16], opersize := 64, pfx := 0x66 } ]

/-- gen_x86_insn.py, `add_group("movq", …)` at lines 3874, 3880, 3887, 3893, 3902, 3909, 3916, 3924, 3931. -/
def movq_insn : List RawForm :=
  [ { opcode := [0x0F, 0x6F], operands := [⟨.simdReg, .s64, false, .spare, false, .none, .none⟩, ⟨.simdRM, .s64, true, .ea,
      false, .none, .none⟩], cpu := [14], gas := false },
    { opcode := [0x0F, 0x6E], operands := [⟨.simdReg, .s64, false, .spare, false, .none, .none⟩, ⟨.rm, .s64, true, .ea, false,
      .none, .none⟩], cpu := [14], opersize := 64, gas := false },
    { opcode := [0x0F, 0x7F], operands := [⟨.simdRM, .s64, true, .ea, false, .none, .none⟩, ⟨.simdReg, .s64, false, .spare,
      false, .none, .none⟩], cpu := [14], gas := false },
    { opcode := [0x0F, 0x7E], operands := [⟨.rm, .s64, true, .ea, false, .none, .none⟩, ⟨.simdReg, .s64, false, .spare, false,
      .none, .none⟩], cpu := [14], opersize := 64, gas := false },
    { opcode := [0x0F, 0x7E], operands := [⟨.simdReg, .s128, false, .spare, false, .none, .none⟩, ⟨.simdReg, .s128, false, .ea,
      false, .none, .none⟩], cpu := [16], pfx := 0xF3, gas := false },
    { opcode := [0x0F, 0x7E], operands := [⟨.simdReg, .s128, false, .spare, false, .none, .none⟩, ⟨.simdRM, .s64, true, .ea,
      false, .none, .none⟩], cpu := [16], pfx := 0xF3, gas := false },
    { opcode := [0x0F, 0x6E], operands := [⟨.simdReg, .s128, false, .spare, false, .none, .none⟩, ⟨.rm, .s64, true, .ea, false,
      .none, .none⟩], cpu := [16], opersize := 64, pfx := 0x66, gas := false },
    { opcode := [0x0F, 0xD6], operands := [⟨.simdRM, .s64, true, .ea, false, .none, .none⟩, ⟨.simdReg, .s128, false, .spare,
      false, .none, .none⟩], cpu := [16], pfx := 0x66, gas := false },
    { opcode := [0x0F, 0x7E], operands := [⟨.rm, .s64, true, .ea, false, .none, .none⟩, ⟨.simdReg, .s128, false, .spare, false,
      .none, .none⟩], cpu := [16], opersize := 64, pfx := 0x66, gas := false } ]

/-- gen_x86_insn.py, `add_group("mmxsse2", …)` at lines 3942, 3948. -/
def mmxsse2_insn : List RawForm :=
  [ { opcode := [0x0F, 0x00], operands := [⟨.simdReg, .s64, false, .spare, false, .none, .none⟩, ⟨.simdRM, .s64, true, .ea,
      false, .none, .none⟩], modifiers := [.op1Add], cpu := [14] },
    { opcode := [0x0F, 0x00], operands := [⟨.simdReg, .s128, false, .spare, false, .none, .none⟩, ⟨.simdRM, .s128, true, .ea,
      false, .none, .none⟩], modifiers := [.op1Add], cpu := [16], pfx := 0x66 } ]

/-- gen_x86_insn.py, `add_group("pshift", …)` at lines 4035, 4041, 4048, 4055. -/
def pshift_insn : List RawForm :=
  [ { opcode := [0x0F, 0x00], operands := [⟨.simdReg, .s64, false, .spare, false, .none, .none⟩, ⟨.simdRM, .s64, true, .ea,
      false, .none, .none⟩], modifiers := [.op1Add], cpu := [14] },
    { opcode := [0x0F, 0x00], operands := [⟨.simdReg, .s64, false, .ea, false, .none, .none⟩, ⟨.imm, .s8, true, .imm, false,
      .none, .none⟩], modifiers := [.gap, .op1Add, .spAdd], cpu := [14] },
    { opcode := [0x0F, 0x00], operands := [⟨.simdReg, .s128, false, .spare, false, .none, .none⟩, ⟨.simdRM, .s128, true, .ea,
      false, .none, .none⟩], modifiers := [.op1Add], cpu := [16], pfx := 0x66 },
    { opcode := [0x0F, 0x00], operands := [⟨.simdReg, .s128, false, .ea, false, .none, .none⟩, ⟨.imm, .s8, true, .imm, false,
      .none, .none⟩], modifiers := [.gap, .op1Add, .spAdd], cpu := [16], pfx := 0x66 } ]

/-- gen_x86_insn.py, `add_group("vpshift", …)` at lines 4075, 4083, 4092, 4101. -/
def vpshift_insn : List RawForm :=
  [ { opcode := [0x0F, 0x00], operands := [⟨.simdReg, .s128, false, .spareVEX, false, .none, .none⟩, ⟨.simdRM, .s128, true, .ea,
      false, .none, .none⟩], modifiers := [.op1Add], cpu := [34], pfx := 0x66, vex := some 128 },
    { opcode := [0x0F, 0x00], operands := [⟨.simdReg, .s128, false, .eaVEX, false, .none, .none⟩, ⟨.imm, .s8, true, .imm, false,
      .none, .none⟩], modifiers := [.gap, .op1Add, .spAdd], cpu := [34], pfx := 0x66, vex := some 128 },
    { opcode := [0x0F, 0x00], operands := [⟨.simdReg, .s128, false, .spare, false, .none, .none⟩, ⟨.simdReg, .s128, false, .vex,
      false, .none, .none⟩, ⟨.simdRM, .s128, true, .ea, false, .none, .none⟩], modifiers := [.op1Add], cpu := [34], pfx := 0x66,
      vex := some 128 },
    { opcode := [0x0F, 0x00], operands := [⟨.simdReg, .s128, false, .vex, false, .none, .none⟩, ⟨.simdReg, .s128, false, .ea,
      false, .none, .none⟩, ⟨.imm, .s8, true, .imm, false, .none, .none⟩], modifiers := [.gap, .op1Add, .spAdd], cpu := [34],
      pfx := 0x66, vex := some 128 },
    { opcode := [0x0F, 0x00], operands := [⟨.simdReg, .s256, false, .spareVEX, false, .none, .none⟩, ⟨.simdRM, .s128, true, .ea,
      false, .none, .none⟩], modifiers := [.op1Add], cpu := [47], pfx := 0x66, vex := some 256 },
    { opcode := [0x0F, 0x00], operands := [⟨.simdReg, .s256, false, .eaVEX, false, .none, .none⟩, ⟨.imm, .s8, true, .imm, false,
      .none, .none⟩], modifiers := [.gap, .op1Add, .spAdd], cpu := [47], pfx := 0x66, vex := some 256 },
    { opcode := [0x0F, 0x00], operands := [⟨.simdReg, .s256, false, .spare, false, .none, .none⟩, ⟨.simdReg, .s256, false, .vex,
      false, .none, .none⟩, ⟨.simdRM, .s128, true, .ea, false, .none, .none⟩], modifiers := [.op1Add], cpu := [47], pfx := 0x66,
      vex := some 256 },
    { opcode := [0x0F, 0x00], operands := [⟨.simdReg, .s256, false, .vex, false, .none, .none⟩, ⟨.simdReg, .s256, false, .ea,
      false, .none, .none⟩, ⟨.imm, .s8, true, .imm, false, .none, .none⟩], modifiers := [.gap, .op1Add, .spAdd], cpu := [47],
      pfx := 0x66, vex := some 256 } ]

/-- gen_x86_insn.py, `add_group("xmm_xmm128_256", …)` at lines 4150, 4157, 4166, 4174. -/
def xmm_xmm128_256_insn : List RawForm :=
  [ { opcode := [0x0F, 0x00], operands := [⟨.simdReg, .s128, false, .spareVEX, false, .none, .none⟩, ⟨.simdRM, .s128, true, .ea,
      false, .none, .none⟩], modifiers := [.preAdd, .op1Add, .setVEX], cpu := [15] },
    { opcode := [0x0F, 0x00], operands := [⟨.simdReg, .s128, false, .spare, false, .none, .none⟩, ⟨.simdReg, .s128, false, .vex,
      false, .none, .none⟩, ⟨.simdRM, .s128, true, .ea, false, .none, .none⟩], modifiers := [.preAdd, .op1Add], cpu := [34],
      vex := some 128 },
    { opcode := [0x0F, 0x00], operands := [⟨.simdReg, .s256, false, .spareVEX, false, .none, .none⟩, ⟨.simdRM, .s256, true, .ea,
      false, .none, .none⟩], modifiers := [.preAdd, .op1Add], cpu := [34], vex := some 256 },
    { opcode := [0x0F, 0x00], operands := [⟨.simdReg, .s256, false, .spare, false, .none, .none⟩, ⟨.simdReg, .s256, false, .vex,
      false, .none, .none⟩, ⟨.simdRM, .s256, true, .ea, false, .none, .none⟩], modifiers := [.preAdd, .op1Add], cpu := [34],
      vex := some 256 } ]

/-- gen_x86_insn.py, `add_group("xmm_xmm128_256avx2", …)` at lines 4185, 4192, 4201, 4209. -/
def xmm_xmm128_256avx2_insn : List RawForm :=
  [ { opcode := [0x0F, 0x00], operands := [⟨.simdReg, .s128, false, .spareVEX, false, .none, .none⟩, ⟨.simdRM, .s128, true, .ea,
      false, .none, .none⟩], modifiers := [.preAdd, .op1Add, .setVEX], cpu := [15] },
    { opcode := [0x0F, 0x00], operands := [⟨.simdReg, .s128, false, .spare, false, .none, .none⟩, ⟨.simdReg, .s128, false, .vex,
      false, .none, .none⟩, ⟨.simdRM, .s128, true, .ea, false, .none, .none⟩], modifiers := [.preAdd, .op1Add], cpu := [34],
      vex := some 128 },
    { opcode := [0x0F, 0x00], operands := [⟨.simdReg, .s256, false, .spareVEX, false, .none, .none⟩, ⟨.simdRM, .s256, true, .ea,
      false, .none, .none⟩], modifiers := [.preAdd, .op1Add], cpu := [47], vex := some 256 },
    { opcode := [0x0F, 0x00], operands := [⟨.simdReg, .s256, false, .spare, false, .none, .none⟩, ⟨.simdReg, .s256, false, .vex,
      false, .none, .none⟩, ⟨.simdRM, .s256, true, .ea, false, .none, .none⟩], modifiers := [.preAdd, .op1Add], cpu := [47],
      vex := some 256 } ]

/-- gen_x86_insn.py, `add_group("xmm_xmm128", …)` at lines 4220, 4227. -/
def xmm_xmm128_insn : List RawForm :=
  [ { opcode := [0x0F, 0x00], operands := [⟨.simdReg, .s128, false, .spareVEX, false, .none, .none⟩, ⟨.simdRM, .s128, true, .ea,
      false, .none, .none⟩], modifiers := [.preAdd, .op1Add, .setVEX], cpu := [15] },
    { opcode := [0x0F, 0x00], operands := [⟨.simdReg, .s128, false, .spare, false, .none, .none⟩, ⟨.simdReg, .s128, false, .vex,
      false, .none, .none⟩, ⟨.simdRM, .s128, true, .ea, false, .none, .none⟩], modifiers := [.preAdd, .op1Add], cpu := [34],
      vex := some 128 } ]

/-- gen_x86_insn.py, `add_group("cvt_rx_xmm32", …)` at lines 4267, 4275, 4284, 4293. -/
def cvt_rx_xmm32_insn : List RawForm :=
  [ { opcode := [0x0F, 0x00], operands := [⟨.reg, .s32, false, .spare, false, .none, .none⟩, ⟨.simdReg, .s128, false, .ea,
      false, .none, .none⟩], modifiers := [.preAdd, .op1Add, .setVEX], cpu := [15], suffixes := some [.l] },
    { opcode := [0x0F, 0x00], operands := [⟨.reg, .s32, false, .spare, false, .none, .none⟩, ⟨.mem, .s32, true, .ea, false,
      .none, .none⟩], modifiers := [.preAdd, .op1Add, .setVEX], cpu := [15], suffixes := some [.l] },
    { opcode := [0x0F, 0x00], operands := [⟨.reg, .s64, false, .spare, false, .none, .none⟩, ⟨.simdReg, .s128, false, .ea,
      false, .none, .none⟩], modifiers := [.preAdd, .op1Add, .setVEX], cpu := [15], opersize := 64, suffixes := some [.q] },
    { opcode := [0x0F, 0x00], operands := [⟨.reg, .s64, false, .spare, false, .none, .none⟩, ⟨.mem, .s32, true, .ea, false,
      .none, .none⟩], modifiers := [.preAdd, .op1Add, .setVEX], cpu := [15], opersize := 64, suffixes := some [.q] } ]

/-- gen_x86_insn.py, `add_group("cvt_mm_xmm64", …)` at lines 4308, 4314. -/
def cvt_mm_xmm64_insn : List RawForm :=
  [ { opcode := [0x0F, 0x00], operands := [⟨.simdReg, .s64, false, .spare, false, .none, .none⟩, ⟨.simdReg, .s128, false, .ea,
      false, .none, .none⟩], modifiers := [.op1Add], cpu := [15] },
    { opcode := [0x0F, 0x00], operands := [⟨.simdReg, .s64, false, .spare, false, .none, .none⟩, ⟨.mem, .s64, true, .ea, false,
      .none, .none⟩], modifiers := [.op1Add], cpu := [15] } ]

/-- gen_x86_insn.py, `add_group("cvt_xmm_mm_ps", …)` at lines 4324. -/
def cvt_xmm_mm_ps_insn : List RawForm :=
  [ { opcode := [0x0F, 0x00], operands := [⟨.simdReg, .s128, false, .spare, false, .none, .none⟩, ⟨.simdRM, .s64, true, .ea,
      false, .none, .none⟩], modifiers := [.op1Add], cpu := [15] } ]

/-- gen_x86_insn.py, `add_group("cvt_xmm_rmx", …)` at lines 4335, 4343, 4353, 4362, 4373, 4383. -/
def cvt_xmm_rmx_insn : List RawForm :=
  [ { opcode := [0x0F, 0x00], operands := [⟨.simdReg, .s128, false, .spareVEX, false, .none, .none⟩, ⟨.rm, .s32, false, .ea,
      false, .none, .none⟩], modifiers := [.preAdd, .op1Add, .setVEX], cpu := [15], suffixes := some [.l] },
    { opcode := [0x0F, 0x00], operands := [⟨.simdReg, .s128, false, .spareVEX, false, .none, .none⟩, ⟨.rm, .s32, true, .ea,
      false, .none, .none⟩], modifiers := [.preAdd, .op1Add, .setVEX], cpu := [15], suffixes := some [.l], not64 := true },
    { opcode := [0x0F, 0x00], operands := [⟨.simdReg, .s128, false, .spareVEX, false, .none, .none⟩, ⟨.rm, .s64, false, .ea,
      false, .none, .none⟩], modifiers := [.preAdd, .op1Add, .setVEX], cpu := [15], opersize := 64, suffixes := some [.q] },
    { opcode := [0x0F, 0x00], operands := [⟨.simdReg, .s128, false, .spare, false, .none, .none⟩, ⟨.simdReg, .s128, false, .vex,
      false, .none, .none⟩, ⟨.rm, .s32, true, .ea, false, .none, .none⟩], modifiers := [.preAdd, .op1Add], cpu := [34],
      vex := some 128, suffixes := some [.l], not64 := true },
    { opcode := [0x0F, 0x00], operands := [⟨.simdReg, .s128, false, .spare, false, .none, .none⟩, ⟨.simdReg, .s128, false, .vex,
      false, .none, .none⟩, ⟨.rm, .s32, false, .ea, false, .none, .none⟩], modifiers := [.preAdd, .op1Add], cpu := [34],
      vex := some 128, suffixes := some [.l] },
    { opcode := [0x0F, 0x00], operands := [⟨.simdReg, .s128, false, .spare, false, .none, .none⟩, ⟨.simdReg, .s128, false, .vex,
      false, .none, .none⟩, ⟨.rm, .s64, false, .ea, false, .none, .none⟩], modifiers := [.preAdd, .op1Add], cpu := [34],
      opersize := 64, vex := some 128, suffixes := some [.q] } ]

/-- gen_x86_insn.py, `add_group("xmm_xmm32", …)` at lines 4398, 4405, 4412, 4421. -/
def xmm_xmm32_insn : List RawForm :=
  [ { opcode := [0x0F, 0x00], operands := [⟨.simdReg, .s128, false, .spareVEX, false, .none, .none⟩, ⟨.simdReg, .s128, false,
      .ea, false, .none, .none⟩], modifiers := [.preAdd, .op1Add, .setVEX], cpu := [15] },
    { opcode := [0x0F, 0x00], operands := [⟨.simdReg, .s128, false, .spareVEX, false, .none, .none⟩, ⟨.mem, .s32, true, .ea,
      false, .none, .none⟩], modifiers := [.preAdd, .op1Add, .setVEX], cpu := [15] },
    { opcode := [0x0F, 0x00], operands := [⟨.simdReg, .s128, false, .spare, false, .none, .none⟩, ⟨.simdReg, .s128, false, .vex,
      false, .none, .none⟩, ⟨.simdReg, .s128, false, .ea, false, .none, .none⟩], modifiers := [.preAdd, .op1Add], cpu := [34],
      vex := some 128 },
    { opcode := [0x0F, 0x00], operands := [⟨.simdReg, .s128, false, .spare, false, .none, .none⟩, ⟨.simdReg, .s128, false, .vex,
      false, .none, .none⟩, ⟨.mem, .s32, true, .ea, false, .none, .none⟩], modifiers := [.preAdd, .op1Add], cpu := [34],
      vex := some 128 } ]

/-- gen_x86_insn.py, `add_group("ssecmp_128", …)` at lines 4454, 4460, 4468. -/
def ssecmp_128_insn : List RawForm :=
  [ { opcode := [0x0F, 0xC2], operands := [⟨.simdReg, .s128, false, .spareVEX, false, .none, .none⟩, ⟨.simdRM, .s128, true, .ea,
      false, .none, .none⟩], modifiers := [.imm8, .preAdd, .setVEX], cpu := [15] },
    { opcode := [0x0F, 0xC2], operands := [⟨.simdReg, .s128, false, .spare, false, .none, .none⟩, ⟨.simdReg, .s128, false, .vex,
      false, .none, .none⟩, ⟨.simdRM, .s128, true, .ea, false, .none, .none⟩], modifiers := [.imm8, .preAdd], cpu := [34],
      vex := some 128 },
    { opcode := [0x0F, 0xC2], operands := [⟨.simdReg, .s256, false, .spare, false, .none, .none⟩, ⟨.simdReg, .s256, false, .vex,
      false, .none, .none⟩, ⟨.simdRM, .s256, true, .ea, false, .none, .none⟩], modifiers := [.imm8, .preAdd], cpu := [34],
      vex := some 256 } ]

/-- gen_x86_insn.py, `add_group("ssecmp_32", …)` at lines 4477, 4484, 4491, 4500. -/
def ssecmp_32_insn : List RawForm :=
  [ { opcode := [0x0F, 0xC2], operands := [⟨.simdReg, .s128, false, .spareVEX, false, .none, .none⟩, ⟨.simdReg, .s128, false,
      .ea, false, .none, .none⟩], modifiers := [.imm8, .preAdd, .setVEX], cpu := [15] },
    { opcode := [0x0F, 0xC2], operands := [⟨.simdReg, .s128, false, .spareVEX, false, .none, .none⟩, ⟨.mem, .s32, true, .ea,
      false, .none, .none⟩], modifiers := [.imm8, .preAdd, .setVEX], cpu := [15] },
    { opcode := [0x0F, 0xC2], operands := [⟨.simdReg, .s128, false, .spare, false, .none, .none⟩, ⟨.simdReg, .s128, false, .vex,
      false, .none, .none⟩, ⟨.simdReg, .s128, false, .ea, false, .none, .none⟩], modifiers := [.imm8, .preAdd], cpu := [34],
      vex := some 128 },
    { opcode := [0x0F, 0xC2], operands := [⟨.simdReg, .s128, false, .spare, false, .none, .none⟩, ⟨.simdReg, .s128, false, .vex,
      false, .none, .none⟩, ⟨.mem, .s32, true, .ea, false, .none, .none⟩], modifiers := [.imm8, .preAdd], cpu := [34],
      vex := some 128 } ]

/-- gen_x86_insn.py, `add_group("xmm_xmm128_imm", …)` at lines 4558. -/
def xmm_xmm128_imm_insn : List RawForm :=
  [ { opcode := [0x0F, 0x00], operands := [⟨.simdReg, .s128, false, .spare, false, .none, .none⟩, ⟨.simdRM, .s128, true, .ea,
      false, .none, .none⟩, ⟨.imm, .s8, true, .imm, false, .none, .none⟩], modifiers := [.preAdd, .op1Add, .setVEX],
      cpu := [15] } ]

/-- gen_x86_insn.py, `add_group("xmm_xmm128_imm_256avx2", …)` at lines 4570, 4577. -/
def xmm_xmm128_imm_256avx2_insn : List RawForm :=
  [ { opcode := [0x0F, 0x00], operands := [⟨.simdReg, .s128, false, .spare, false, .none, .none⟩, ⟨.simdRM, .s128, true, .ea,
      false, .none, .none⟩, ⟨.imm, .s8, true, .imm, false, .none, .none⟩], modifiers := [.preAdd, .op1Add, .setVEX],
      cpu := [15] },
    { opcode := [0x0F, 0x00], operands := [⟨.simdReg, .s256, false, .spare, false, .none, .none⟩, ⟨.simdRM, .s256, true, .ea,
      false, .none, .none⟩, ⟨.imm, .s8, true, .imm, false, .none, .none⟩], modifiers := [.preAdd, .op1Add], cpu := [47],
      vex := some 256 } ]

/-- gen_x86_insn.py, `add_group("xmm_xmm128_imm_256", …)` at lines 4587, 4594, 4603. -/
def xmm_xmm128_imm_256_insn : List RawForm :=
  [ { opcode := [0x0F, 0x00], operands := [⟨.simdReg, .s128, false, .spareVEX, false, .none, .none⟩, ⟨.simdRM, .s128, true, .ea,
      false, .none, .none⟩, ⟨.imm, .s8, true, .imm, false, .none, .none⟩], modifiers := [.preAdd, .op1Add, .setVEX],
      cpu := [15] },
    { opcode := [0x0F, 0x00], operands := [⟨.simdReg, .s128, false, .spare, false, .none, .none⟩, ⟨.simdReg, .s128, false, .vex,
      false, .none, .none⟩, ⟨.simdRM, .s128, true, .ea, false, .none, .none⟩, ⟨.imm, .s8, true, .imm, false, .none, .none⟩],
      modifiers := [.preAdd, .op1Add], cpu := [34], vex := some 128 },
    { opcode := [0x0F, 0x00], operands := [⟨.simdReg, .s256, false, .spare, false, .none, .none⟩, ⟨.simdReg, .s256, false, .vex,
      false, .none, .none⟩, ⟨.simdRM, .s256, true, .ea, false, .none, .none⟩, ⟨.imm, .s8, true, .imm, false, .none, .none⟩],
      modifiers := [.preAdd, .op1Add], cpu := [34], vex := some 256 } ]

/-- gen_x86_insn.py, `add_group("xmm_xmm32_imm", …)` at lines 4616, 4624, 4632, 4642. -/
def xmm_xmm32_imm_insn : List RawForm :=
  [ { opcode := [0x0F, 0x00], operands := [⟨.simdReg, .s128, false, .spareVEX, false, .none, .none⟩, ⟨.simdReg, .s128, false,
      .ea, false, .none, .none⟩, ⟨.imm, .s8, true, .imm, false, .none, .none⟩], modifiers := [.preAdd, .op1Add, .setVEX],
      cpu := [15] },
    { opcode := [0x0F, 0x00], operands := [⟨.simdReg, .s128, false, .spareVEX, false, .none, .none⟩, ⟨.mem, .s32, true, .ea,
      false, .none, .none⟩, ⟨.imm, .s8, true, .imm, false, .none, .none⟩], modifiers := [.preAdd, .op1Add, .setVEX],
      cpu := [15] },
    { opcode := [0x0F, 0x00], operands := [⟨.simdReg, .s128, false, .spare, false, .none, .none⟩, ⟨.simdReg, .s128, false, .vex,
      false, .none, .none⟩, ⟨.simdReg, .s128, false, .ea, false, .none, .none⟩, ⟨.imm, .s8, true, .imm, false, .none, .none⟩],
      modifiers := [.preAdd, .op1Add], cpu := [34], vex := some 128 },
    { opcode := [0x0F, 0x00], operands := [⟨.simdReg, .s128, false, .spare, false, .none, .none⟩, ⟨.simdReg, .s128, false, .vex,
      false, .none, .none⟩, ⟨.mem, .s32, true, .ea, false, .none, .none⟩, ⟨.imm, .s8, true, .imm, false, .none, .none⟩],
      modifiers := [.preAdd, .op1Add], cpu := [34], vex := some 128 } ]

/-- gen_x86_insn.py, `add_group("ldstmxcsr", …)` at lines 4656. -/
def ldstmxcsr_insn : List RawForm :=
  [ { opcode := [0x0F, 0xAE], operands := [⟨.mem, .s32, true, .ea, false, .none, .none⟩], modifiers := [.spAdd, .setVEX],
      cpu := [15] } ]

/-- gen_x86_insn.py, `add_group("maskmovq", …)` at lines 4668. -/
def maskmovq_insn : List RawForm :=
  [ { opcode := [0x0F, 0xF7], operands := [⟨.simdReg, .s64, false, .spare, false, .none, .none⟩, ⟨.simdReg, .s64, false, .ea,
      false, .none, .none⟩], cpu := [14, 7] } ]

/-- gen_x86_insn.py, `add_group("movau", …)` at lines 4678, 4686, 4694, 4701, 4708, 4715. -/
def movau_insn : List RawForm :=
  [ { opcode := [0x0F, 0x00], operands := [⟨.simdReg, .s128, false, .spare, false, .none, .none⟩, ⟨.simdRM, .s128, true, .ea,
      false, .none, .none⟩], modifiers := [.preAdd, .op1Add], cpu := [15], notavx := true },
    { opcode := [0x0F, 0x00], operands := [⟨.simdRM, .s128, true, .ea, false, .none, .none⟩, ⟨.simdReg, .s128, false, .spare,
      false, .none, .none⟩], modifiers := [.preAdd, .op1Add, .op1Add], cpu := [15], notavx := true },
    { opcode := [0x0F, 0x00], operands := [⟨.simdReg, .s128, false, .spare, false, .none, .none⟩, ⟨.simdRM, .s128, true, .ea,
      false, .none, .none⟩], modifiers := [.preAdd, .op1Add], cpu := [34], vex := some 128 },
    { opcode := [0x0F, 0x00], operands := [⟨.simdRM, .s128, true, .ea, false, .none, .none⟩, ⟨.simdReg, .s128, false, .spare,
      false, .none, .none⟩], modifiers := [.preAdd, .op1Add, .op1Add], cpu := [34], vex := some 128 },
    { opcode := [0x0F, 0x00], operands := [⟨.simdReg, .s256, false, .spare, false, .none, .none⟩, ⟨.simdRM, .s256, true, .ea,
      false, .none, .none⟩], modifiers := [.preAdd, .op1Add], cpu := [34], vex := some 256 },
    { opcode := [0x0F, 0x00], operands := [⟨.simdRM, .s256, true, .ea, false, .none, .none⟩, ⟨.simdReg, .s256, false, .spare,
      false, .none, .none⟩], modifiers := [.preAdd, .op1Add, .op1Add], cpu := [34], vex := some 256 } ]

/-- gen_x86_insn.py, `add_group("movhllhps", …)` at lines 4728, 4734. -/
def movhllhps_insn : List RawForm :=
  [ { opcode := [0x0F, 0x00], operands := [⟨.simdReg, .s128, false, .spareVEX, false, .none, .none⟩, ⟨.simdReg, .s128, false,
      .ea, false, .none, .none⟩], modifiers := [.op1Add, .setVEX], cpu := [15] },
    { opcode := [0x0F, 0x00], operands := [⟨.simdReg, .s128, false, .spare, false, .none, .none⟩, ⟨.simdReg, .s128, false, .vex,
      false, .none, .none⟩, ⟨.simdReg, .s128, false, .ea, false, .none, .none⟩], modifiers := [.op1Add], cpu := [34],
      vex := some 128 } ]

/-- gen_x86_insn.py, `add_group("movhlp", …)` at lines 4748, 4755, 4762. -/
def movhlp_insn : List RawForm :=
  [ { opcode := [0x0F, 0x00], operands := [⟨.simdReg, .s128, false, .spareVEX, false, .none, .none⟩, ⟨.mem, .s64, true, .ea,
      false, .none, .none⟩], modifiers := [.preAdd, .op1Add, .setVEX], cpu := [15] },
    { opcode := [0x0F, 0x01], operands := [⟨.mem, .s64, true, .ea, false, .none, .none⟩, ⟨.simdReg, .s128, false, .spare, false,
      .none, .none⟩], modifiers := [.preAdd, .op1Add, .setVEX], cpu := [15] },
    { opcode := [0x0F, 0x00], operands := [⟨.simdReg, .s128, false, .spare, false, .none, .none⟩, ⟨.simdReg, .s128, false, .vex,
      false, .none, .none⟩, ⟨.mem, .s64, true, .ea, false, .none, .none⟩], modifiers := [.preAdd, .op1Add], cpu := [34],
      vex := some 128 } ]

/-- gen_x86_insn.py, `add_group("movmsk", …)` at lines 4777, 4785, 4794, 4803. -/
def movmsk_insn : List RawForm :=
  [ { opcode := [0x0F, 0x50], operands := [⟨.reg, .s32, false, .spare, false, .none, .none⟩, ⟨.simdReg, .s128, false, .ea,
      false, .none, .none⟩], modifiers := [.preAdd, .setVEX], cpu := [15], suffixes := some [.l] },
    { opcode := [0x0F, 0x50], operands := [⟨.reg, .s64, false, .spare, false, .none, .none⟩, ⟨.simdReg, .s128, false, .ea,
      false, .none, .none⟩], modifiers := [.preAdd, .setVEX], cpu := [15], opersize := 64, suffixes := some [.q] },
    { opcode := [0x0F, 0x50], operands := [⟨.reg, .s32, false, .spare, false, .none, .none⟩, ⟨.simdReg, .s256, false, .ea,
      false, .none, .none⟩], modifiers := [.preAdd], cpu := [34], vex := some 256, suffixes := some [.l] },
    { opcode := [0x0F, 0x50], operands := [⟨.reg, .s64, false, .spare, false, .none, .none⟩, ⟨.simdReg, .s256, false, .ea,
      false, .none, .none⟩], modifiers := [.preAdd], cpu := [15], opersize := 64, vex := some 256, suffixes := some [.q] } ]

/-- gen_x86_insn.py, `add_group("movnt", …)` at lines 4817, 4824. -/
def movnt_insn : List RawForm :=
  [ { opcode := [0x0F, 0x00], operands := [⟨.mem, .s128, true, .ea, false, .none, .none⟩, ⟨.simdReg, .s128, false, .spare,
      false, .none, .none⟩], modifiers := [.preAdd, .op1Add, .setVEX], cpu := [15] },
    { opcode := [0x0F, 0x00], operands := [⟨.mem, .s256, true, .ea, false, .none, .none⟩, ⟨.simdReg, .s256, false, .spare,
      false, .none, .none⟩], modifiers := [.preAdd, .op1Add], cpu := [34], vex := some 256 } ]

/-- gen_x86_insn.py, `add_group("movntq", …)` at lines 4836. -/
def movntq_insn : List RawForm :=
  [ { opcode := [0x0F, 0xE7], operands := [⟨.mem, .s64, true, .ea, false, .none, .none⟩, ⟨.simdReg, .s64, false, .spare, false,
      .none, .none⟩], cpu := [15] } ]

/-- gen_x86_insn.py, `add_group("movss", …)` at lines 4844, 4851, 4858, 4865. -/
def movss_insn : List RawForm :=
  [ { opcode := [0x0F, 0x10], operands := [⟨.simdReg, .s128, false, .spareVEX, false, .none, .none⟩, ⟨.simdReg, .s128, false,
      .ea, false, .none, .none⟩], modifiers := [.setVEX], cpu := [15], pfx := 0xF3 },
    { opcode := [0x0F, 0x10], operands := [⟨.simdReg, .s128, false, .spare, false, .none, .none⟩, ⟨.mem, .s32, true, .ea, false,
      .none, .none⟩], modifiers := [.setVEX], cpu := [15], pfx := 0xF3 },
    { opcode := [0x0F, 0x11], operands := [⟨.mem, .s32, true, .ea, false, .none, .none⟩, ⟨.simdReg, .s128, false, .spare, false,
      .none, .none⟩], modifiers := [.setVEX], cpu := [15], pfx := 0xF3 },
    { opcode := [0x0F, 0x10], operands := [⟨.simdReg, .s128, false, .spare, false, .none, .none⟩, ⟨.simdReg, .s128, false, .vex,
      false, .none, .none⟩, ⟨.simdReg, .s128, false, .ea, false, .none, .none⟩], cpu := [34], pfx := 0xF3, vex := some 128 } ]

/-- gen_x86_insn.py, `add_group("pextrw", …)` at lines 4877, 4885, 4894, 4903, 4914, 4922, 4931. -/
def pextrw_insn : List RawForm :=
  [ { opcode := [0x0F, 0xC5], operands := [⟨.reg, .s32, false, .spare, false, .none, .none⟩, ⟨.simdReg, .s64, false, .ea, false,
      .none, .none⟩, ⟨.imm, .s8, true, .imm, false, .none, .none⟩], cpu := [14, 7], suffixes := some [.l], notavx := true },
    { opcode := [0x0F, 0xC5], operands := [⟨.reg, .s32, false, .spare, false, .none, .none⟩, ⟨.simdReg, .s128, false, .ea,
      false, .none, .none⟩, ⟨.imm, .s8, true, .imm, false, .none, .none⟩], modifiers := [.setVEX], cpu := [16], pfx := 0x66,
      suffixes := some [.l] },
    { opcode := [0x0F, 0xC5], operands := [⟨.reg, .s64, false, .spare, false, .none, .none⟩, ⟨.simdReg, .s64, false, .ea, false,
      .none, .none⟩, ⟨.imm, .s8, true, .imm, false, .none, .none⟩], cpu := [14, 7], opersize := 64, suffixes := some [.q],
      notavx := true },
    { opcode := [0x0F, 0xC5], operands := [⟨.reg, .s64, false, .spare, false, .none, .none⟩, ⟨.simdReg, .s128, false, .ea,
      false, .none, .none⟩, ⟨.imm, .s8, true, .imm, false, .none, .none⟩], modifiers := [.setVEX], cpu := [16], opersize := 64,
      pfx := 0x66, suffixes := some [.q] },
    { opcode := [0x0F, 0x3A, 0x15], operands := [⟨.mem, .s16, true, .ea, false, .none, .none⟩, ⟨.simdReg, .s128, false, .spare,
      false, .none, .none⟩, ⟨.imm, .s8, true, .imm, false, .none, .none⟩], modifiers := [.setVEX], cpu := [30], pfx := 0x66 },
    { opcode := [0x0F, 0x3A, 0x15], operands := [⟨.reg, .s32, false, .ea, false, .none, .none⟩, ⟨.simdReg, .s128, false, .spare,
      false, .none, .none⟩, ⟨.imm, .s8, true, .imm, false, .none, .none⟩], modifiers := [.setVEX], cpu := [30], opersize := 32,
      pfx := 0x66 },
    { opcode := [0x0F, 0x3A, 0x15], operands := [⟨.reg, .s64, false, .ea, false, .none, .none⟩, ⟨.simdReg, .s128, false, .spare,
      false, .none, .none⟩, ⟨.imm, .s8, true, .imm, false, .none, .none⟩], modifiers := [.setVEX], cpu := [30], opersize := 64,
      pfx := 0x66 } ]

/-- The groups of this file. -/
def groups4 : List (List RawForm) :=
  [fstsw_insn, ffree_insn, bswap_insn, cmpxchgxadd_insn, cmpxchg8b_insn, cmovcc_insn, fcmovcc_insn, movnti_insn,
    clflush_insn, movd_insn, movq_insn, mmxsse2_insn, pshift_insn, vpshift_insn, xmm_xmm128_256_insn,
    xmm_xmm128_256avx2_insn, xmm_xmm128_insn, cvt_rx_xmm32_insn, cvt_mm_xmm64_insn, cvt_xmm_mm_ps_insn,
    cvt_xmm_rmx_insn, xmm_xmm32_insn, ssecmp_128_insn, ssecmp_32_insn, xmm_xmm128_imm_insn, xmm_xmm128_imm_256avx2_insn,
    xmm_xmm128_imm_256_insn, xmm_xmm32_imm_insn, ldstmxcsr_insn, maskmovq_insn, movau_insn, movhllhps_insn, movhlp_insn,
    movmsk_insn, movnt_insn, movntq_insn, movss_insn, pextrw_insn]

end Verif.Match
