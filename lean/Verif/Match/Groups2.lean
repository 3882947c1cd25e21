/-
The table of modules/arch/x86/gen_x86_insn.py: the calls of `add_group`, with its loops written out.  Made by reading the syntax tree
of the script; nothing but literals and the arithmetic on them is evaluated.
-/
import Verif.Match.Gen

namespace Verif.Match

/-- gen_x86_insn.py, `add_group("aadm", …)` at lines 2058, 2062. -/
def aadm_insn : List RawForm :=
  [ { opcode := [0xD4, 0x0A], modifiers := [.op0Add] },
    { opcode := [0xD4], operands := [⟨.imm, .s8, true, .imm, false, .none, .none⟩], modifiers := [.op0Add] } ]

/-- gen_x86_insn.py, `add_group("imul", …)` at lines 2098, 2105, 2113, 2122, 2130, 2141. -/
def imul_insn : List RawForm :=
  [ { opcode := [0xF6], operands := [⟨.rm, .s8, false, .ea, false, .none, .none⟩], opersize := 8, spare := 0x5,
      suffixes := some [.b] },
    { opcode := [0xF7], operands := [⟨.rm, .s16, false, .ea, false, .none, .none⟩], opersize := 16, spare := 0x5,
      suffixes := some [.w] },
    { opcode := [0xF7], operands := [⟨.rm, .s32, false, .ea, false, .none, .none⟩], opersize := 32, spare := 0x5,
      suffixes := some [.l] },
    { opcode := [0xF7], operands := [⟨.rm, .s64, false, .ea, false, .none, .none⟩], opersize := 64, spare := 0x5,
      suffixes := some [.q] },
    { opcode := [0x0F, 0xAF], operands := [⟨.reg, .s16, false, .spare, false, .none, .none⟩, ⟨.rm, .s16, true, .ea, false,
      .none, .none⟩], cpu := [3], opersize := 16, suffixes := some [.w] },
    { opcode := [0x0F, 0xAF], operands := [⟨.reg, .s32, false, .spare, false, .none, .none⟩, ⟨.rm, .s32, true, .ea, false,
      .none, .none⟩], cpu := [3], opersize := 32, suffixes := some [.l] },
    { opcode := [0x0F, 0xAF], operands := [⟨.reg, .s64, false, .spare, false, .none, .none⟩, ⟨.rm, .s64, true, .ea, false,
      .none, .none⟩], cpu := [3], opersize := 64, suffixes := some [.q] },
    { opcode := [0x6B], operands := [⟨.reg, .s16, false, .spare, false, .none, .none⟩, ⟨.rm, .s16, true, .ea, false, .none,
      .none⟩, ⟨.imm, .s8, false, .simm, false, .none, .none⟩], cpu := [1], opersize := 16, suffixes := some [.w] },
    { opcode := [0x6B], operands := [⟨.reg, .s32, false, .spare, false, .none, .none⟩, ⟨.rm, .s32, true, .ea, false, .none,
      .none⟩, ⟨.imm, .s8, false, .simm, false, .none, .none⟩], cpu := [1], opersize := 32, suffixes := some [.l] },
    { opcode := [0x6B], operands := [⟨.reg, .s64, false, .spare, false, .none, .none⟩, ⟨.rm, .s64, true, .ea, false, .none,
      .none⟩, ⟨.imm, .s8, false, .simm, false, .none, .none⟩], cpu := [1], opersize := 64, suffixes := some [.q] },
    { opcode := [0x6B], operands := [⟨.reg, .s16, false, .spareEA, false, .none, .none⟩, ⟨.imm, .s8, false, .simm, false, .none,
      .none⟩], cpu := [1], opersize := 16, suffixes := some [.w] },
    { opcode := [0x6B], operands := [⟨.reg, .s32, false, .spareEA, false, .none, .none⟩, ⟨.imm, .s8, false, .simm, false, .none,
      .none⟩], cpu := [1], opersize := 32, suffixes := some [.l] },
    { opcode := [0x6B], operands := [⟨.reg, .s64, false, .spareEA, false, .none, .none⟩, ⟨.imm, .s8, false, .simm, false, .none,
      .none⟩], cpu := [1], opersize := 64, suffixes := some [.q] },
    { opcode := [0x6B], opcode2 := [0x69], operands := [⟨.reg, .s16, false, .spare, false, .none, .none⟩, ⟨.rm, .s16, true, .ea,
      false, .none, .none⟩, ⟨.imm, .s16, true, .simm, false, .none, .simm8⟩], cpu := [1], opersize := 16,
      suffixes := some [.w] },
    { opcode := [0x6B], opcode2 := [0x69], operands := [⟨.reg, .s32, false, .spare, false, .none, .none⟩, ⟨.rm, .s32, true, .ea,
      false, .none, .none⟩, ⟨.imm, .s32, true, .simm, false, .none, .simm8⟩], cpu := [1], opersize := 32,
      suffixes := some [.l] },
    { opcode := [0x6B], opcode2 := [0x69], operands := [⟨.reg, .s64, false, .spare, false, .none, .none⟩, ⟨.rm, .s64, true, .ea,
      false, .none, .none⟩, ⟨.imm, .s32, true, .simm, false, .none, .simm8⟩], cpu := [1], opersize := 64,
      suffixes := some [.q] },
    { opcode := [0x6B], opcode2 := [0x69], operands := [⟨.reg, .s16, false, .spareEA, false, .none, .none⟩, ⟨.imm, .s16, true,
      .simm, false, .none, .simm8⟩], cpu := [1], opersize := 16, suffixes := some [.w] },
    { opcode := [0x6B], opcode2 := [0x69], operands := [⟨.reg, .s32, false, .spareEA, false, .none, .none⟩, ⟨.imm, .s32, true,
      .simm, false, .none, .simm8⟩], cpu := [1], opersize := 32, suffixes := some [.l] },
    { opcode := [0x6B], opcode2 := [0x69], operands := [⟨.reg, .s64, false, .spareEA, false, .none, .none⟩, ⟨.imm, .s32, true,
      .simm, false, .none, .simm8⟩], cpu := [1], opersize := 64, suffixes := some [.q] } ]

/-- gen_x86_insn.py, `add_group("shift", …)` at lines 2157, 2165, 2173, 2184. -/
def shift_insn : List RawForm :=
  [ { opcode := [0xD2], operands := [⟨.rm, .s8, false, .ea, false, .none, .none⟩, ⟨.creg, .s8, false, .none, false, .none,
      .none⟩], modifiers := [.spAdd], opersize := 8, suffixes := some [.b] },
    { opcode := [0xD0], operands := [⟨.rm, .s8, false, .ea, false, .none, .none⟩, ⟨.imm1, .s8, true, .none, false, .none,
      .none⟩], modifiers := [.spAdd], opersize := 8, suffixes := some [.b] },
    { opcode := [0xC0], operands := [⟨.rm, .s8, false, .ea, false, .none, .none⟩, ⟨.imm, .s8, true, .imm, false, .none, .none⟩],
      modifiers := [.spAdd], cpu := [1], opersize := 8, suffixes := some [.b] },
    { opcode := [0xD3], operands := [⟨.rm, .s16, false, .ea, false, .none, .none⟩, ⟨.creg, .s8, false, .none, false, .none,
      .none⟩], modifiers := [.spAdd], opersize := 16, suffixes := some [.w] },
    { opcode := [0xD1], operands := [⟨.rm, .s16, false, .ea, false, .none, .none⟩, ⟨.imm1, .s8, true, .none, false, .none,
      .none⟩], modifiers := [.spAdd], opersize := 16, suffixes := some [.w] },
    { opcode := [0xC1], operands := [⟨.rm, .s16, false, .ea, false, .none, .none⟩, ⟨.imm, .s8, true, .imm, false, .none,
      .none⟩], modifiers := [.spAdd], cpu := [1], opersize := 16, suffixes := some [.w] },
    { opcode := [0xD3], operands := [⟨.rm, .s32, false, .ea, false, .none, .none⟩, ⟨.creg, .s8, false, .none, false, .none,
      .none⟩], modifiers := [.spAdd], opersize := 32, suffixes := some [.l] },
    { opcode := [0xD1], operands := [⟨.rm, .s32, false, .ea, false, .none, .none⟩, ⟨.imm1, .s8, true, .none, false, .none,
      .none⟩], modifiers := [.spAdd], opersize := 32, suffixes := some [.l] },
    { opcode := [0xC1], operands := [⟨.rm, .s32, false, .ea, false, .none, .none⟩, ⟨.imm, .s8, true, .imm, false, .none,
      .none⟩], modifiers := [.spAdd], cpu := [1], opersize := 32, suffixes := some [.l] },
    { opcode := [0xD3], operands := [⟨.rm, .s64, false, .ea, false, .none, .none⟩, ⟨.creg, .s8, false, .none, false, .none,
      .none⟩], modifiers := [.spAdd], opersize := 64, suffixes := some [.q] },
    { opcode := [0xD1], operands := [⟨.rm, .s64, false, .ea, false, .none, .none⟩, ⟨.imm1, .s8, true, .none, false, .none,
      .none⟩], modifiers := [.spAdd], opersize := 64, suffixes := some [.q] },
    { opcode := [0xC1], operands := [⟨.rm, .s64, false, .ea, false, .none, .none⟩, ⟨.imm, .s8, true, .imm, false, .none,
      .none⟩], modifiers := [.spAdd], cpu := [1], opersize := 64, suffixes := some [.q] },
    { opcode := [0xD0], operands := [⟨.rm, .s8, false, .ea, false, .none, .none⟩], modifiers := [.spAdd], opersize := 8,
      suffixes := some [.b], nasm := false },
    { opcode := [0xD1], operands := [⟨.rm, .s16, false, .ea, false, .none, .none⟩], modifiers := [.spAdd], opersize := 16,
      suffixes := some [.w], nasm := false },
    { opcode := [0xD1], operands := [⟨.rm, .s32, false, .ea, false, .none, .none⟩], modifiers := [.spAdd], opersize := 32,
      suffixes := some [.l], nasm := false },
    { opcode := [0xD1], operands := [⟨.rm, .s64, false, .ea, false, .none, .none⟩], modifiers := [.spAdd], opersize := 64,
      suffixes := some [.q], nasm := false } ]

/-- gen_x86_insn.py, `add_group("shlrd", …)` at lines 2206, 2215, 2226. -/
def shlrd_insn : List RawForm :=
  [ { opcode := [0x0F, 0x00], operands := [⟨.rm, .s16, true, .ea, false, .none, .none⟩, ⟨.reg, .s16, false, .spare, false,
      .none, .none⟩, ⟨.imm, .s8, true, .imm, false, .none, .none⟩], modifiers := [.op1Add], cpu := [3], opersize := 16,
      suffixes := some [.w] },
    { opcode := [0x0F, 0x01], operands := [⟨.rm, .s16, true, .ea, false, .none, .none⟩, ⟨.reg, .s16, false, .spare, false,
      .none, .none⟩, ⟨.creg, .s8, false, .none, false, .none, .none⟩], modifiers := [.op1Add], cpu := [3], opersize := 16,
      suffixes := some [.w] },
    { opcode := [0x0F, 0x00], operands := [⟨.rm, .s32, true, .ea, false, .none, .none⟩, ⟨.reg, .s32, false, .spare, false,
      .none, .none⟩, ⟨.imm, .s8, true, .imm, false, .none, .none⟩], modifiers := [.op1Add], cpu := [3], opersize := 32,
      suffixes := some [.l] },
    { opcode := [0x0F, 0x01], operands := [⟨.rm, .s32, true, .ea, false, .none, .none⟩, ⟨.reg, .s32, false, .spare, false,
      .none, .none⟩, ⟨.creg, .s8, false, .none, false, .none, .none⟩], modifiers := [.op1Add], cpu := [3], opersize := 32,
      suffixes := some [.l] },
    { opcode := [0x0F, 0x00], operands := [⟨.rm, .s64, true, .ea, false, .none, .none⟩, ⟨.reg, .s64, false, .spare, false,
      .none, .none⟩, ⟨.imm, .s8, true, .imm, false, .none, .none⟩], modifiers := [.op1Add], cpu := [3], opersize := 64,
      suffixes := some [.q] },
    { opcode := [0x0F, 0x01], operands := [⟨.rm, .s64, true, .ea, false, .none, .none⟩, ⟨.reg, .s64, false, .spare, false,
      .none, .none⟩, ⟨.creg, .s8, false, .none, false, .none, .none⟩], modifiers := [.op1Add], cpu := [3], opersize := 64,
      suffixes := some [.q] },
    { opcode := [0x0F, 0x01], operands := [⟨.rm, .s16, true, .ea, false, .none, .none⟩, ⟨.reg, .s16, false, .spare, false,
      .none, .none⟩], modifiers := [.op1Add], cpu := [3], opersize := 16, suffixes := some [.w], nasm := false },
    { opcode := [0x0F, 0x01], operands := [⟨.rm, .s32, true, .ea, false, .none, .none⟩, ⟨.reg, .s32, false, .spare, false,
      .none, .none⟩], modifiers := [.op1Add], cpu := [3], opersize := 32, suffixes := some [.l], nasm := false },
    { opcode := [0x0F, 0x01], operands := [⟨.rm, .s64, true, .ea, false, .none, .none⟩, ⟨.reg, .s64, false, .spare, false,
      .none, .none⟩], modifiers := [.op1Add], cpu := [3], opersize := 64, suffixes := some [.q], nasm := false } ]

/-- gen_x86_insn.py, `add_group("call", …)` at lines
    2245, 2248, 2253, 2259, 2266, 2271, 2276, 2282, 2287, 2294, 2302, 2310, 2316, 2321, 2328, 2335, 2342, 2351, 2357,
  2365, 2371, 2379, 2385, 2393, 2403. -/
def call_insn : List RawForm :=
  [ { opcode := [], operands := [⟨.immNotSegOff, .any, false, .jmpRel, false, .none, .none⟩] },
    { opcode := [], operands := [⟨.immNotSegOff, .s16, false, .jmpRel, false, .none, .none⟩], opersize := 16,
      suffixes := some [.w] },
    { opcode := [], operands := [⟨.immNotSegOff, .s32, false, .jmpRel, false, .none, .none⟩], opersize := 32,
      suffixes := some [.l], not64 := true },
    { opcode := [], operands := [⟨.immNotSegOff, .s32, false, .jmpRel, false, .none, .none⟩], opersize := 64,
      suffixes := some [.l, .q], only64 := true },
    { opcode := [0xE8], operands := [⟨.imm, .s16, false, .jmpRel, false, .near, .none⟩], opersize := 16, not64 := true },
    { opcode := [0xE8], operands := [⟨.imm, .s32, false, .jmpRel, false, .near, .none⟩], opersize := 32, not64 := true },
    { opcode := [0xE8], operands := [⟨.imm, .s32, false, .jmpRel, false, .near, .none⟩], opersize := 64, def64 := 64,
      only64 := true },
    { opcode := [0xE8], operands := [⟨.imm, .any, false, .jmpRel, false, .near, .none⟩], def64 := 64 },
    { opcode := [0xFF], operands := [⟨.rm, .s16, false, .ea, false, .none, .none⟩], opersize := 16, spare := 0x2,
      suffixes := some [.w], reqSuffix := true },
    { opcode := [0xFF], operands := [⟨.rm, .s32, false, .ea, false, .none, .none⟩], opersize := 32, spare := 0x2,
      suffixes := some [.l], reqSuffix := true, not64 := true },
    { opcode := [0xFF], operands := [⟨.rm, .s64, false, .ea, false, .none, .none⟩], opersize := 64, def64 := 64, spare := 0x2,
      suffixes := some [.q], reqSuffix := true },
    { opcode := [0xFF], operands := [⟨.reg, .bits, false, .ea, false, .none, .none⟩], def64 := 64, spare := 0x2, nasm := false },
    { opcode := [0xFF], operands := [⟨.mem, .any, false, .ea, false, .none, .none⟩], def64 := 64, spare := 0x2 },
    { opcode := [0xFF], operands := [⟨.rm, .s16, false, .ea, false, .near, .none⟩], opersize := 16, def64 := 64, spare := 0x2,
      gas := false },
    { opcode := [0xFF], operands := [⟨.rm, .s32, false, .ea, false, .near, .none⟩], opersize := 32, spare := 0x2, not64 := true,
      gas := false },
    { opcode := [0xFF], operands := [⟨.rm, .s64, false, .ea, false, .near, .none⟩], opersize := 64, def64 := 64, spare := 0x2,
      gas := false },
    { opcode := [0xFF], operands := [⟨.mem, .any, false, .ea, false, .near, .none⟩], def64 := 64, spare := 0x2, gas := false },
    { opcode := [0xFF], operands := [⟨.mem, .s16, false, .ea, false, .far, .none⟩], opersize := 16, spare := 0x3, gas := false },
    { opcode := [0xFF], operands := [⟨.mem, .s32, false, .ea, false, .far, .none⟩], opersize := 32, spare := 0x3, gas := false },
    { opcode := [0xFF], operands := [⟨.mem, .s64, false, .ea, false, .far, .none⟩], opersize := 64, spare := 0x3, gas := false },
    { opcode := [0xFF], operands := [⟨.mem, .any, false, .ea, false, .far, .none⟩], spare := 0x3, gas := false },
    { opcode := [0x9A], operands := [⟨.imm, .s16, false, .jmpFar, false, .far, .none⟩], opersize := 16, not64 := true,
      gas := false },
    { opcode := [0x9A], operands := [⟨.imm, .s32, false, .jmpFar, false, .far, .none⟩], opersize := 32, not64 := true,
      gas := false },
    { opcode := [0x9A], operands := [⟨.imm, .any, false, .jmpFar, false, .far, .none⟩], not64 := true, gas := false },
    { opcode := [0x9A], operands := [⟨.imm, .s16, false, .jmpFar, false, .none, .none⟩], opersize := 16, not64 := true,
      gas := false },
    { opcode := [0x9A], operands := [⟨.imm, .s32, false, .jmpFar, false, .none, .none⟩], opersize := 32, not64 := true,
      gas := false },
    { opcode := [0x9A], operands := [⟨.imm, .any, false, .jmpFar, false, .none, .none⟩], not64 := true, gas := false },
    { opcode := [0x9A], operands := [⟨.imm, .s16, true, .jmpFar, false, .none, .none⟩, ⟨.imm, .s16, true, .jmpFar, false, .none,
      .none⟩], opersize := 16, suffixes := some [.w], reqSuffix := true, not64 := true, gasNoRev := true, nasm := false },
    { opcode := [0x9A], operands := [⟨.imm, .s16, true, .jmpFar, false, .none, .none⟩, ⟨.imm, .s32, true, .jmpFar, false, .none,
      .none⟩], opersize := 32, suffixes := some [.l], reqSuffix := true, not64 := true, gasNoRev := true, nasm := false },
    { opcode := [0x9A], operands := [⟨.imm, .s16, true, .jmpFar, false, .none, .none⟩, ⟨.imm, .bits, true, .jmpFar, false,
      .none, .none⟩], not64 := true, gasNoRev := true, nasm := false } ]

/-- gen_x86_insn.py, `add_group("jmp", …)` at lines
    2416, 2419, 2424, 2430, 2437, 2441, 2446, 2452, 2458, 2463, 2471, 2479, 2487, 2493, 2498, 2505, 2513, 2520, 2529,
  2534, 2541, 2546, 2553, 2559, 2567, 2577. -/
def jmp_insn : List RawForm :=
  [ { opcode := [], operands := [⟨.immNotSegOff, .any, false, .jmpRel, false, .none, .none⟩] },
    { opcode := [], operands := [⟨.immNotSegOff, .s16, false, .jmpRel, false, .none, .none⟩], opersize := 16,
      suffixes := some [.w] },
    { opcode := [0x00], operands := [⟨.immNotSegOff, .s32, false, .jmpRel, false, .none, .none⟩], opersize := 32,
      suffixes := some [.l], not64 := true },
    { opcode := [0x00], operands := [⟨.immNotSegOff, .s32, false, .jmpRel, false, .none, .none⟩], opersize := 64,
      suffixes := some [.l, .q], only64 := true },
    { opcode := [0xEB], operands := [⟨.imm, .any, false, .jmpRel, false, .short, .none⟩], def64 := 64 },
    { opcode := [0xE9], operands := [⟨.imm, .s16, false, .jmpRel, false, .near, .none⟩], opersize := 16, def64 := 64 },
    { opcode := [0xE9], operands := [⟨.imm, .s32, false, .jmpRel, false, .near, .none⟩], cpu := [3], opersize := 32,
      not64 := true },
    { opcode := [0xE9], operands := [⟨.imm, .s32, false, .jmpRel, false, .near, .none⟩], opersize := 64, def64 := 64,
      only64 := true },
    { opcode := [0xE9], operands := [⟨.imm, .any, false, .jmpRel, false, .near, .none⟩], def64 := 64 },
    { opcode := [0xFF], operands := [⟨.rm, .s16, false, .ea, false, .none, .none⟩], opersize := 16, def64 := 64, spare := 0x4,
      suffixes := some [.w], reqSuffix := true },
    { opcode := [0xFF], operands := [⟨.rm, .s32, false, .ea, false, .none, .none⟩], opersize := 32, spare := 0x4,
      suffixes := some [.l], reqSuffix := true, not64 := true },
    { opcode := [0xFF], operands := [⟨.rm, .s64, false, .ea, false, .none, .none⟩], opersize := 64, def64 := 64, spare := 0x4,
      suffixes := some [.q], reqSuffix := true },
    { opcode := [0xFF], operands := [⟨.reg, .bits, false, .ea, false, .none, .none⟩], def64 := 64, spare := 0x4, nasm := false },
    { opcode := [0xFF], operands := [⟨.mem, .any, false, .ea, false, .none, .none⟩], def64 := 64, spare := 0x4 },
    { opcode := [0xFF], operands := [⟨.rm, .s16, false, .ea, false, .near, .none⟩], opersize := 16, def64 := 64, spare := 0x4,
      gas := false },
    { opcode := [0xFF], operands := [⟨.rm, .s32, false, .ea, false, .near, .none⟩], cpu := [3], opersize := 32, spare := 0x4,
      not64 := true, gas := false },
    { opcode := [0xFF], operands := [⟨.rm, .s64, false, .ea, false, .near, .none⟩], opersize := 64, def64 := 64, spare := 0x4,
      gas := false },
    { opcode := [0xFF], operands := [⟨.mem, .any, false, .ea, false, .near, .none⟩], def64 := 64, spare := 0x4, gas := false },
    { opcode := [0xFF], operands := [⟨.mem, .s16, false, .ea, false, .far, .none⟩], opersize := 16, spare := 0x5 },
    { opcode := [0xFF], operands := [⟨.mem, .s32, false, .ea, false, .far, .none⟩], opersize := 32, spare := 0x5 },
    { opcode := [0xFF], operands := [⟨.mem, .s64, false, .ea, false, .far, .none⟩], opersize := 64, spare := 0x5 },
    { opcode := [0xFF], operands := [⟨.mem, .any, false, .ea, false, .far, .none⟩], spare := 0x5 },
    { opcode := [0xEA], operands := [⟨.imm, .s16, false, .jmpFar, false, .far, .none⟩], opersize := 16, not64 := true },
    { opcode := [0xEA], operands := [⟨.imm, .s32, false, .jmpFar, false, .far, .none⟩], opersize := 32, not64 := true },
    { opcode := [0xEA], operands := [⟨.imm, .any, false, .jmpFar, false, .far, .none⟩], not64 := true },
    { opcode := [0xEA], operands := [⟨.imm, .s16, false, .jmpFar, false, .none, .none⟩], opersize := 16, not64 := true,
      gas := false },
    { opcode := [0xEA], operands := [⟨.imm, .s32, false, .jmpFar, false, .none, .none⟩], opersize := 32, not64 := true,
      gas := false },
    { opcode := [0xEA], operands := [⟨.imm, .any, false, .jmpFar, false, .none, .none⟩], not64 := true, gas := false },
    { opcode := [0xEA], operands := [⟨.imm, .s16, true, .jmpFar, false, .none, .none⟩, ⟨.imm, .s16, true, .jmpFar, false, .none,
      .none⟩], opersize := 16, suffixes := some [.w], reqSuffix := true, not64 := true, gasNoRev := true, nasm := false },
    { opcode := [0xEA], operands := [⟨.imm, .s16, true, .jmpFar, false, .none, .none⟩, ⟨.imm, .s32, true, .jmpFar, false, .none,
      .none⟩], opersize := 32, suffixes := some [.l], reqSuffix := true, not64 := true, gasNoRev := true, nasm := false },
    { opcode := [0xEA], operands := [⟨.imm, .s16, true, .jmpFar, false, .none, .none⟩, ⟨.imm, .bits, true, .jmpFar, false,
      .none, .none⟩], not64 := true, gasNoRev := true, nasm := false } ]

/-- gen_x86_insn.py, `add_group("ljmpcall", …)` at lines 2593, 2601, 2609, 2619. -/
def ljmpcall_insn : List RawForm :=
  [ { opcode := [0xFF], operands := [⟨.mem, .s16, true, .ea, false, .none, .none⟩], modifiers := [.spAdd], opersize := 16,
      suffixes := some [.w], reqSuffix := true },
    { opcode := [0xFF], operands := [⟨.mem, .s32, true, .ea, false, .none, .none⟩], modifiers := [.spAdd], opersize := 32,
      suffixes := some [.l], reqSuffix := true },
    { opcode := [0xFF], operands := [⟨.mem, .s64, true, .ea, false, .none, .none⟩], modifiers := [.spAdd], opersize := 64,
      suffixes := some [.q], reqSuffix := true },
    { opcode := [0xFF], operands := [⟨.mem, .bits, true, .ea, false, .none, .none⟩], modifiers := [.spAdd] },
    { opcode := [0x00], operands := [⟨.imm, .s16, true, .jmpFar, false, .none, .none⟩, ⟨.imm, .s16, true, .jmpFar, false, .none,
      .none⟩], modifiers := [.gap, .op0Add], opersize := 16, suffixes := some [.w], reqSuffix := true, not64 := true,
      gasNoRev := true },
    { opcode := [0x00], operands := [⟨.imm, .s16, true, .jmpFar, false, .none, .none⟩, ⟨.imm, .s32, true, .jmpFar, false, .none,
      .none⟩], modifiers := [.gap, .op0Add], opersize := 32, suffixes := some [.l], reqSuffix := true, not64 := true,
      gasNoRev := true },
    { opcode := [0x00], operands := [⟨.imm, .s16, true, .jmpFar, false, .none, .none⟩, ⟨.imm, .bits, true, .jmpFar, false,
      .none, .none⟩], modifiers := [.gap, .op0Add], not64 := true, gasNoRev := true } ]

/-- gen_x86_insn.py, `add_group("retnf", …)` at lines 2633, 2638, 2643, 2648, 2653, 2660. -/
def retnf_insn : List RawForm :=
  [ { opcode := [0x01], modifiers := [.op0Add], not64 := true },
    { opcode := [0x00], operands := [⟨.imm, .s16, true, .imm, false, .none, .none⟩], modifiers := [.op0Add], not64 := true },
    { opcode := [0x01], modifiers := [.op0Add, .opSizeR], only64 := true },
    { opcode := [0x00], operands := [⟨.imm, .s16, true, .imm, false, .none, .none⟩], modifiers := [.op0Add, .opSizeR],
      only64 := true },
    { opcode := [0x01], modifiers := [.op0Add, .opSizeR], suffixes := some [.w, .l, .q], genSuffix := false },
    { opcode := [0x00], operands := [⟨.imm, .s16, true, .imm, false, .none, .none⟩], modifiers := [.op0Add, .opSizeR],
      suffixes := some [.w, .l, .q], genSuffix := false } ]

/-- The groups of this file. -/
def groups2 : List (List RawForm) :=
  [aadm_insn, imul_insn, shift_insn, shlrd_insn, call_insn, jmp_insn, ljmpcall_insn, retnf_insn]

end Verif.Match
