/-
The table of modules/arch/x86/gen_x86_insn.py: the calls of `add_insn`, with its loops written out.  Made by reading the syntax tree
of the script; nothing but literals and the arithmetic on them is evaluated.
-/
import Verif.Match.Gen

namespace Verif.Match

/-- gen_x86_insn.py:3687-5229. -/
def names1 : List RawInsn :=
  [ { name := "wrmsr", group := 4, modifiers := [0x0F, 0x30], cpu := some [5, 25] },
    { name := "rdtsc", group := 4, modifiers := [0x0F, 0x31], cpu := some [5] },
    { name := "rdmsr", group := 4, modifiers := [0x0F, 0x32], cpu := some [5, 25] },
    { name := "cmpxchg8b", group := 71 },
    { name := "sysenter", group := 4, modifiers := [0x0F, 0x34], cpu := some [6], not64 := true },
    { name := "sysexit", group := 4, modifiers := [0x0F, 0x35], cpu := some [6, 25], not64 := true },
    { name := "fxsave", group := 7, modifiers := [0x00, 0x0F, 0xAE], cpu := some [6, 13] },
    { name := "fxrstor", group := 7, modifiers := [0x01, 0x0F, 0xAE], cpu := some [6, 13] },
    { name := "fxsaveq", group := 7, suffix := some .q, modifiers := [0x00, 0x0F, 0xAE], cpu := some [6, 13] },
    { name := "fxrstorq", group := 7, suffix := some .q, modifiers := [0x01, 0x0F, 0xAE], cpu := some [6, 13] },
    { name := "rdpmc", group := 4, modifiers := [0x0F, 0x33], cpu := some [6] },
    { name := "ud2", group := 4, modifiers := [0x0F, 0x0B], cpu := some [2] },
    { name := "ud1", group := 4, modifiers := [0x0F, 0xB9], cpu := some [2, 23] },
    { name := "cmovo", group := 72, modifiers := [0x00] },
    { name := "cmovno", group := 72, modifiers := [0x01] },
    { name := "cmovb", group := 72, modifiers := [0x02] },
    { name := "cmovc", group := 72, modifiers := [0x02] },
    { name := "cmovnae", group := 72, modifiers := [0x02] },
    { name := "cmovnb", group := 72, modifiers := [0x03] },
    { name := "cmovnc", group := 72, modifiers := [0x03] },
    { name := "cmovae", group := 72, modifiers := [0x03] },
    { name := "cmove", group := 72, modifiers := [0x04] },
    { name := "cmovz", group := 72, modifiers := [0x04] },
    { name := "cmovne", group := 72, modifiers := [0x05] },
    { name := "cmovnz", group := 72, modifiers := [0x05] },
    { name := "cmovbe", group := 72, modifiers := [0x06] },
    { name := "cmovna", group := 72, modifiers := [0x06] },
    { name := "cmovnbe", group := 72, modifiers := [0x07] },
    { name := "cmova", group := 72, modifiers := [0x07] },
    { name := "cmovs", group := 72, modifiers := [0x08] },
    { name := "cmovns", group := 72, modifiers := [0x09] },
    { name := "cmovp", group := 72, modifiers := [0x0A] },
    { name := "cmovpe", group := 72, modifiers := [0x0A] },
    { name := "cmovnp", group := 72, modifiers := [0x0B] },
    { name := "cmovpo", group := 72, modifiers := [0x0B] },
    { name := "cmovl", group := 72, modifiers := [0x0C] },
    { name := "cmovnge", group := 72, modifiers := [0x0C] },
    { name := "cmovnl", group := 72, modifiers := [0x0D] },
    { name := "cmovge", group := 72, modifiers := [0x0D] },
    { name := "cmovle", group := 72, modifiers := [0x0E] },
    { name := "cmovng", group := 72, modifiers := [0x0E] },
    { name := "cmovnle", group := 72, modifiers := [0x0F] },
    { name := "cmovg", group := 72, modifiers := [0x0F] },
    { name := "fcmovb", group := 73, modifiers := [0xDA, 0xC0] },
    { name := "fcmove", group := 73, modifiers := [0xDA, 0xC8] },
    { name := "fcmovbe", group := 73, modifiers := [0xDA, 0xD0] },
    { name := "fcmovu", group := 73, modifiers := [0xDA, 0xD8] },
    { name := "fcmovnb", group := 73, modifiers := [0xDB, 0xC0] },
    { name := "fcmovne", group := 73, modifiers := [0xDB, 0xC8] },
    { name := "fcmovnbe", group := 73, modifiers := [0xDB, 0xD0] },
    { name := "fcmovnu", group := 73, modifiers := [0xDB, 0xD8] },
    { name := "fcomi", group := 60, modifiers := [0xDB, 0xF0], cpu := some [6, 13] },
    { name := "fucomi", group := 60, modifiers := [0xDB, 0xE8], cpu := some [6, 13] },
    { name := "fcomip", group := 60, modifiers := [0xDF, 0xF0], cpu := some [6, 13] },
    { name := "fucomip", group := 60, modifiers := [0xDF, 0xE8], cpu := some [6, 13] },
    { name := "movnti", group := 74 },
    { name := "clflush", group := 75 },
    { name := "lfence", group := 5, modifiers := [0x0F, 0xAE, 0xE8], cpu := some [7] },
    { name := "mfence", group := 5, modifiers := [0x0F, 0xAE, 0xF0], cpu := some [7] },
    { name := "pause", group := 3, modifiers := [0xF3, 0x90], cpu := some [8] },
    { name := "emms", group := 4, modifiers := [0x0F, 0x77], cpu := some [14] },
    { name := "movd", group := 76 },
    { name := "movq", group := 77 },
    { name := "packssdw", group := 78, modifiers := [0x6B] },
    { name := "packsswb", group := 78, modifiers := [0x63] },
    { name := "packuswb", group := 78, modifiers := [0x67] },
    { name := "paddb", group := 78, modifiers := [0xFC] },
    { name := "paddw", group := 78, modifiers := [0xFD] },
    { name := "paddd", group := 78, modifiers := [0xFE] },
    { name := "paddq", group := 78, modifiers := [0xD4] },
    { name := "paddsb", group := 78, modifiers := [0xEC] },
    { name := "paddsw", group := 78, modifiers := [0xED] },
    { name := "paddusb", group := 78, modifiers := [0xDC] },
    { name := "paddusw", group := 78, modifiers := [0xDD] },
    { name := "pand", group := 78, modifiers := [0xDB] },
    { name := "pandn", group := 78, modifiers := [0xDF] },
    { name := "pcmpeqb", group := 78, modifiers := [0x74] },
    { name := "pcmpeqw", group := 78, modifiers := [0x75] },
    { name := "pcmpeqd", group := 78, modifiers := [0x76] },
    { name := "pcmpgtb", group := 78, modifiers := [0x64] },
    { name := "pcmpgtw", group := 78, modifiers := [0x65] },
    { name := "pcmpgtd", group := 78, modifiers := [0x66] },
    { name := "pmaddwd", group := 78, modifiers := [0xF5] },
    { name := "pmulhw", group := 78, modifiers := [0xE5] },
    { name := "pmullw", group := 78, modifiers := [0xD5] },
    { name := "por", group := 78, modifiers := [0xEB] },
    { name := "psubb", group := 78, modifiers := [0xF8] },
    { name := "psubw", group := 78, modifiers := [0xF9] },
    { name := "psubd", group := 78, modifiers := [0xFA] },
    { name := "psubq", group := 78, modifiers := [0xFB] },
    { name := "psubsb", group := 78, modifiers := [0xE8] },
    { name := "psubsw", group := 78, modifiers := [0xE9] },
    { name := "psubusb", group := 78, modifiers := [0xD8] },
    { name := "psubusw", group := 78, modifiers := [0xD9] },
    { name := "punpckhbw", group := 78, modifiers := [0x68] },
    { name := "punpckhwd", group := 78, modifiers := [0x69] },
    { name := "punpckhdq", group := 78, modifiers := [0x6A] },
    { name := "punpcklbw", group := 78, modifiers := [0x60] },
    { name := "punpcklwd", group := 78, modifiers := [0x61] },
    { name := "punpckldq", group := 78, modifiers := [0x62] },
    { name := "pxor", group := 78, modifiers := [0xEF] },
    { name := "vpackssdw", group := 82, modifiers := [0x66, 0x6B, 0xC0], avx := true },
    { name := "vpacksswb", group := 82, modifiers := [0x66, 0x63, 0xC0], avx := true },
    { name := "vpackuswb", group := 82, modifiers := [0x66, 0x67, 0xC0], avx := true },
    { name := "vpaddb", group := 82, modifiers := [0x66, 0xFC, 0xC0], avx := true },
    { name := "vpaddw", group := 82, modifiers := [0x66, 0xFD, 0xC0], avx := true },
    { name := "vpaddd", group := 82, modifiers := [0x66, 0xFE, 0xC0], avx := true },
    { name := "vpaddq", group := 82, modifiers := [0x66, 0xD4, 0xC0], avx := true },
    { name := "vpaddsb", group := 82, modifiers := [0x66, 0xEC, 0xC0], avx := true },
    { name := "vpaddsw", group := 82, modifiers := [0x66, 0xED, 0xC0], avx := true },
    { name := "vpaddusb", group := 82, modifiers := [0x66, 0xDC, 0xC0], avx := true },
    { name := "vpaddusw", group := 82, modifiers := [0x66, 0xDD, 0xC0], avx := true },
    { name := "vpand", group := 82, modifiers := [0x66, 0xDB, 0xC0], avx := true },
    { name := "vpandn", group := 82, modifiers := [0x66, 0xDF, 0xC0], avx := true },
    { name := "vpcmpeqb", group := 82, modifiers := [0x66, 0x74, 0xC0], avx := true },
    { name := "vpcmpeqw", group := 82, modifiers := [0x66, 0x75, 0xC0], avx := true },
    { name := "vpcmpeqd", group := 82, modifiers := [0x66, 0x76, 0xC0], avx := true },
    { name := "vpcmpgtb", group := 82, modifiers := [0x66, 0x64, 0xC0], avx := true },
    { name := "vpcmpgtw", group := 82, modifiers := [0x66, 0x65, 0xC0], avx := true },
    { name := "vpcmpgtd", group := 82, modifiers := [0x66, 0x66, 0xC0], avx := true },
    { name := "vpmaddwd", group := 82, modifiers := [0x66, 0xF5, 0xC0], avx := true },
    { name := "vpmulhw", group := 82, modifiers := [0x66, 0xE5, 0xC0], avx := true },
    { name := "vpmullw", group := 82, modifiers := [0x66, 0xD5, 0xC0], avx := true },
    { name := "vpor", group := 82, modifiers := [0x66, 0xEB, 0xC0], avx := true },
    { name := "vpsubb", group := 82, modifiers := [0x66, 0xF8, 0xC0], avx := true },
    { name := "vpsubw", group := 82, modifiers := [0x66, 0xF9, 0xC0], avx := true },
    { name := "vpsubd", group := 82, modifiers := [0x66, 0xFA, 0xC0], avx := true },
    { name := "vpsubq", group := 82, modifiers := [0x66, 0xFB, 0xC0], avx := true },
    { name := "vpsubsb", group := 82, modifiers := [0x66, 0xE8, 0xC0], avx := true },
    { name := "vpsubsw", group := 82, modifiers := [0x66, 0xE9, 0xC0], avx := true },
    { name := "vpsubusb", group := 82, modifiers := [0x66, 0xD8, 0xC0], avx := true },
    { name := "vpsubusw", group := 82, modifiers := [0x66, 0xD9, 0xC0], avx := true },
    { name := "vpunpckhbw", group := 82, modifiers := [0x66, 0x68, 0xC0], avx := true },
    { name := "vpunpckhwd", group := 82, modifiers := [0x66, 0x69, 0xC0], avx := true },
    { name := "vpunpckhdq", group := 82, modifiers := [0x66, 0x6A, 0xC0], avx := true },
    { name := "vpunpcklbw", group := 82, modifiers := [0x66, 0x60, 0xC0], avx := true },
    { name := "vpunpcklwd", group := 82, modifiers := [0x66, 0x61, 0xC0], avx := true },
    { name := "vpunpckldq", group := 82, modifiers := [0x66, 0x62, 0xC0], avx := true },
    { name := "vpxor", group := 82, modifiers := [0x66, 0xEF, 0xC0], avx := true },
    { name := "psllw", group := 79, modifiers := [0xF1, 0x71, 0x06] },
    { name := "pslld", group := 79, modifiers := [0xF2, 0x72, 0x06] },
    { name := "psllq", group := 79, modifiers := [0xF3, 0x73, 0x06] },
    { name := "psraw", group := 79, modifiers := [0xE1, 0x71, 0x04] },
    { name := "psrad", group := 79, modifiers := [0xE2, 0x72, 0x04] },
    { name := "psrlw", group := 79, modifiers := [0xD1, 0x71, 0x02] },
    { name := "psrld", group := 79, modifiers := [0xD2, 0x72, 0x02] },
    { name := "psrlq", group := 79, modifiers := [0xD3, 0x73, 0x02] },
    { name := "vpsllw", group := 80, modifiers := [0xF1, 0x71, 0x06] },
    { name := "vpslld", group := 80, modifiers := [0xF2, 0x72, 0x06] },
    { name := "vpsllq", group := 80, modifiers := [0xF3, 0x73, 0x06] },
    { name := "vpsraw", group := 80, modifiers := [0xE1, 0x71, 0x04] },
    { name := "vpsrad", group := 80, modifiers := [0xE2, 0x72, 0x04] },
    { name := "vpsrlw", group := 80, modifiers := [0xD1, 0x71, 0x02] },
    { name := "vpsrld", group := 80, modifiers := [0xD2, 0x72, 0x02] },
    { name := "vpsrlq", group := 80, modifiers := [0xD3, 0x73, 0x02] },
    { name := "pavgb", group := 78, modifiers := [0xE0], cpu := some [7, 14] },
    { name := "pavgw", group := 78, modifiers := [0xE3], cpu := some [7, 14] },
    { name := "pmaxsw", group := 78, modifiers := [0xEE], cpu := some [7, 14] },
    { name := "pmaxub", group := 78, modifiers := [0xDE], cpu := some [7, 14] },
    { name := "pminsw", group := 78, modifiers := [0xEA], cpu := some [7, 14] },
    { name := "pminub", group := 78, modifiers := [0xDA], cpu := some [7, 14] },
    { name := "pmulhuw", group := 78, modifiers := [0xE4], cpu := some [7, 14] },
    { name := "psadbw", group := 78, modifiers := [0xF6], cpu := some [7, 14] },
    { name := "vpavgb", group := 82, modifiers := [0x66, 0xE0, 0xC0], avx := true },
    { name := "vpavgw", group := 82, modifiers := [0x66, 0xE3, 0xC0], avx := true },
    { name := "vpmaxsw", group := 82, modifiers := [0x66, 0xEE, 0xC0], avx := true },
    { name := "vpmaxub", group := 82, modifiers := [0x66, 0xDE, 0xC0], avx := true },
    { name := "vpminsw", group := 82, modifiers := [0x66, 0xEA, 0xC0], avx := true },
    { name := "vpminub", group := 82, modifiers := [0x66, 0xDA, 0xC0], avx := true },
    { name := "vpmulhuw", group := 82, modifiers := [0x66, 0xE4, 0xC0], avx := true },
    { name := "vpsadbw", group := 82, modifiers := [0x66, 0xF6, 0xC0], avx := true },
    { name := "prefetchnta", group := 7, modifiers := [0x00, 0x0F, 0x18], cpu := some [7] },
    { name := "prefetcht0", group := 7, modifiers := [0x01, 0x0F, 0x18], cpu := some [7] },
    { name := "prefetcht1", group := 7, modifiers := [0x02, 0x0F, 0x18], cpu := some [7] },
    { name := "prefetcht2", group := 7, modifiers := [0x03, 0x0F, 0x18], cpu := some [7] },
    { name := "sfence", group := 5, modifiers := [0x0F, 0xAE, 0xF8], cpu := some [7] },
    { name := "addps", group := 83, modifiers := [0x00, 0x58] },
    { name := "andnps", group := 83, modifiers := [0x00, 0x55] },
    { name := "andps", group := 83, modifiers := [0x00, 0x54] },
    { name := "divps", group := 83, modifiers := [0x00, 0x5E] },
    { name := "maxps", group := 83, modifiers := [0x00, 0x5F] },
    { name := "minps", group := 83, modifiers := [0x00, 0x5D] },
    { name := "mulps", group := 83, modifiers := [0x00, 0x59] },
    { name := "orps", group := 83, modifiers := [0x00, 0x56] },
    { name := "rcpps", group := 83, modifiers := [0x00, 0x53] },
    { name := "rsqrtps", group := 83, modifiers := [0x00, 0x52] },
    { name := "sqrtps", group := 83, modifiers := [0x00, 0x51] },
    { name := "subps", group := 83, modifiers := [0x00, 0x5C] },
    { name := "unpckhps", group := 83, modifiers := [0x00, 0x15] },
    { name := "unpcklps", group := 83, modifiers := [0x00, 0x14] },
    { name := "xorps", group := 83, modifiers := [0x00, 0x57] },
    { name := "vaddps", group := 81, modifiers := [0x00, 0x58, 0xC0], avx := true },
    { name := "vandnps", group := 81, modifiers := [0x00, 0x55, 0xC0], avx := true },
    { name := "vandps", group := 81, modifiers := [0x00, 0x54, 0xC0], avx := true },
    { name := "vdivps", group := 81, modifiers := [0x00, 0x5E, 0xC0], avx := true },
    { name := "vmaxps", group := 81, modifiers := [0x00, 0x5F, 0xC0], avx := true },
    { name := "vminps", group := 81, modifiers := [0x00, 0x5D, 0xC0], avx := true },
    { name := "vmulps", group := 81, modifiers := [0x00, 0x59, 0xC0], avx := true },
    { name := "vorps", group := 81, modifiers := [0x00, 0x56, 0xC0], avx := true },
    { name := "vsubps", group := 81, modifiers := [0x00, 0x5C, 0xC0], avx := true },
    { name := "vunpckhps", group := 81, modifiers := [0x00, 0x15, 0xC0], avx := true },
    { name := "vunpcklps", group := 81, modifiers := [0x00, 0x14, 0xC0], avx := true },
    { name := "vxorps", group := 81, modifiers := [0x00, 0x57, 0xC0], avx := true },
    { name := "cvtss2si", group := 84, modifiers := [0xF3, 0x2D] },
    { name := "cvttss2si", group := 84, modifiers := [0xF3, 0x2C] },
    { name := "vcvtss2si", group := 84, modifiers := [0xF3, 0x2D, 0xC0], avx := true },
    { name := "vcvttss2si", group := 84, modifiers := [0xF3, 0x2C, 0xC0], avx := true },
    { name := "cvtps2pi", group := 85, modifiers := [0x2D] },
    { name := "cvttps2pi", group := 85, modifiers := [0x2C] },
    { name := "cvtpi2ps", group := 86, modifiers := [0x2A] },
    { name := "cvtsi2ss", group := 87, modifiers := [0xF3, 0x2A] },
    { name := "vcvtsi2ss", group := 87, modifiers := [0xF3, 0x2A, 0xC0], avx := true },
    { name := "addss", group := 88, modifiers := [0xF3, 0x58] },
    { name := "comiss", group := 88, modifiers := [0x00, 0x2F] },
    { name := "divss", group := 88, modifiers := [0xF3, 0x5E] },
    { name := "maxss", group := 88, modifiers := [0xF3, 0x5F] },
    { name := "minss", group := 88, modifiers := [0xF3, 0x5D] },
    { name := "mulss", group := 88, modifiers := [0xF3, 0x59] },
    { name := "rcpss", group := 88, modifiers := [0xF3, 0x53] },
    { name := "rsqrtss", group := 88, modifiers := [0xF3, 0x52] },
    { name := "sqrtss", group := 88, modifiers := [0xF3, 0x51] },
    { name := "subss", group := 88, modifiers := [0xF3, 0x5C] },
    { name := "ucomiss", group := 88, modifiers := [0x00, 0x2E] },
    { name := "vaddss", group := 88, modifiers := [0xF3, 0x58, 0xC0], avx := true },
    { name := "vdivss", group := 88, modifiers := [0xF3, 0x5E, 0xC0], avx := true },
    { name := "vmaxss", group := 88, modifiers := [0xF3, 0x5F, 0xC0], avx := true },
    { name := "vminss", group := 88, modifiers := [0xF3, 0x5D, 0xC0], avx := true },
    { name := "vmulss", group := 88, modifiers := [0xF3, 0x59, 0xC0], avx := true },
    { name := "vrcpss", group := 88, modifiers := [0xF3, 0x53, 0xC0], avx := true },
    { name := "vrsqrtss", group := 88, modifiers := [0xF3, 0x52, 0xC0], avx := true },
    { name := "vsqrtss", group := 88, modifiers := [0xF3, 0x51, 0xC0], avx := true },
    { name := "vsubss", group := 88, modifiers := [0xF3, 0x5C, 0xC0], avx := true },
    { name := "cmpeqps", group := 89, modifiers := [0x00] },
    { name := "cmpeqss", group := 90, modifiers := [0x00, 0xF3] },
    { name := "cmpltps", group := 89, modifiers := [0x01] },
    { name := "cmpltss", group := 90, modifiers := [0x01, 0xF3] },
    { name := "cmpleps", group := 89, modifiers := [0x02] },
    { name := "cmpless", group := 90, modifiers := [0x02, 0xF3] },
    { name := "cmpunordps", group := 89, modifiers := [0x03] },
    { name := "cmpunordss", group := 90, modifiers := [0x03, 0xF3] },
    { name := "cmpneqps", group := 89, modifiers := [0x04] },
    { name := "cmpneqss", group := 90, modifiers := [0x04, 0xF3] },
    { name := "cmpnltps", group := 89, modifiers := [0x05] },
    { name := "cmpnltss", group := 90, modifiers := [0x05, 0xF3] },
    { name := "cmpnleps", group := 89, modifiers := [0x06] },
    { name := "cmpnless", group := 90, modifiers := [0x06, 0xF3] },
    { name := "cmpordps", group := 89, modifiers := [0x07] },
    { name := "cmpordss", group := 90, modifiers := [0x07, 0xF3] },
    { name := "vcmpeqps", group := 89, modifiers := [0x00, 0x00, 0xC0], avx := true },
    { name := "vcmpeqss", group := 90, modifiers := [0x00, 0xF3, 0xC0], avx := true },
    { name := "vcmpltps", group := 89, modifiers := [0x01, 0x00, 0xC0], avx := true },
    { name := "vcmpltss", group := 90, modifiers := [0x01, 0xF3, 0xC0], avx := true },
    { name := "vcmpleps", group := 89, modifiers := [0x02, 0x00, 0xC0], avx := true },
    { name := "vcmpless", group := 90, modifiers := [0x02, 0xF3, 0xC0], avx := true },
    { name := "vcmpunordps", group := 89, modifiers := [0x03, 0x00, 0xC0], avx := true },
    { name := "vcmpunordss", group := 90, modifiers := [0x03, 0xF3, 0xC0], avx := true },
    { name := "vcmpneqps", group := 89, modifiers := [0x04, 0x00, 0xC0], avx := true },
    { name := "vcmpneqss", group := 90, modifiers := [0x04, 0xF3, 0xC0], avx := true },
    { name := "vcmpnltps", group := 89, modifiers := [0x05, 0x00, 0xC0], avx := true },
    { name := "vcmpnltss", group := 90, modifiers := [0x05, 0xF3, 0xC0], avx := true },
    { name := "vcmpnleps", group := 89, modifiers := [0x06, 0x00, 0xC0], avx := true },
    { name := "vcmpnless", group := 90, modifiers := [0x06, 0xF3, 0xC0], avx := true },
    { name := "vcmpordps", group := 89, modifiers := [0x07, 0x00, 0xC0], avx := true },
    { name := "vcmpordss", group := 90, modifiers := [0x07, 0xF3, 0xC0], avx := true },
    { name := "vcmpeq_uqps", group := 89, modifiers := [0x08, 0x00, 0xC0], avx := true },
    { name := "vcmpeq_uqss", group := 90, modifiers := [0x08, 0xF3, 0xC0], avx := true },
    { name := "vcmpngeps", group := 89, modifiers := [0x09, 0x00, 0xC0], avx := true },
    { name := "vcmpngess", group := 90, modifiers := [0x09, 0xF3, 0xC0], avx := true },
    { name := "vcmpngtps", group := 89, modifiers := [0x0A, 0x00, 0xC0], avx := true },
    { name := "vcmpngtss", group := 90, modifiers := [0x0A, 0xF3, 0xC0], avx := true },
    { name := "vcmpfalseps", group := 89, modifiers := [0x0B, 0x00, 0xC0], avx := true },
    { name := "vcmpfalsess", group := 90, modifiers := [0x0B, 0xF3, 0xC0], avx := true },
    { name := "vcmpneq_oqps", group := 89, modifiers := [0x0C, 0x00, 0xC0], avx := true },
    { name := "vcmpneq_oqss", group := 90, modifiers := [0x0C, 0xF3, 0xC0], avx := true },
    { name := "vcmpgeps", group := 89, modifiers := [0x0D, 0x00, 0xC0], avx := true },
    { name := "vcmpgess", group := 90, modifiers := [0x0D, 0xF3, 0xC0], avx := true },
    { name := "vcmpgtps", group := 89, modifiers := [0x0E, 0x00, 0xC0], avx := true },
    { name := "vcmpgtss", group := 90, modifiers := [0x0E, 0xF3, 0xC0], avx := true },
    { name := "vcmptrueps", group := 89, modifiers := [0x0F, 0x00, 0xC0], avx := true },
    { name := "vcmptruess", group := 90, modifiers := [0x0F, 0xF3, 0xC0], avx := true },
    { name := "vcmpeq_osps", group := 89, modifiers := [0x10, 0x00, 0xC0], avx := true },
    { name := "vcmpeq_osss", group := 90, modifiers := [0x10, 0xF3, 0xC0], avx := true },
    { name := "vcmplt_oqps", group := 89, modifiers := [0x11, 0x00, 0xC0], avx := true },
    { name := "vcmplt_oqss", group := 90, modifiers := [0x11, 0xF3, 0xC0], avx := true },
    { name := "vcmple_oqps", group := 89, modifiers := [0x12, 0x00, 0xC0], avx := true },
    { name := "vcmple_oqss", group := 90, modifiers := [0x12, 0xF3, 0xC0], avx := true },
    { name := "vcmpunord_sps", group := 89, modifiers := [0x13, 0x00, 0xC0], avx := true },
    { name := "vcmpunord_sss", group := 90, modifiers := [0x13, 0xF3, 0xC0], avx := true },
    { name := "vcmpneq_usps", group := 89, modifiers := [0x14, 0x00, 0xC0], avx := true },
    { name := "vcmpneq_usss", group := 90, modifiers := [0x14, 0xF3, 0xC0], avx := true },
    { name := "vcmpnlt_uqps", group := 89, modifiers := [0x15, 0x00, 0xC0], avx := true },
    { name := "vcmpnlt_uqss", group := 90, modifiers := [0x15, 0xF3, 0xC0], avx := true },
    { name := "vcmpnle_uqps", group := 89, modifiers := [0x16, 0x00, 0xC0], avx := true },
    { name := "vcmpnle_uqss", group := 90, modifiers := [0x16, 0xF3, 0xC0], avx := true },
    { name := "vcmpord_sps", group := 89, modifiers := [0x17, 0x00, 0xC0], avx := true },
    { name := "vcmpord_sss", group := 90, modifiers := [0x17, 0xF3, 0xC0], avx := true },
    { name := "vcmpeq_usps", group := 89, modifiers := [0x18, 0x00, 0xC0], avx := true },
    { name := "vcmpeq_usss", group := 90, modifiers := [0x18, 0xF3, 0xC0], avx := true },
    { name := "vcmpnge_uqps", group := 89, modifiers := [0x19, 0x00, 0xC0], avx := true },
    { name := "vcmpnge_uqss", group := 90, modifiers := [0x19, 0xF3, 0xC0], avx := true },
    { name := "vcmpngt_uqps", group := 89, modifiers := [0x1A, 0x00, 0xC0], avx := true },
    { name := "vcmpngt_uqss", group := 90, modifiers := [0x1A, 0xF3, 0xC0], avx := true },
    { name := "vcmpfalse_osps", group := 89, modifiers := [0x1B, 0x00, 0xC0], avx := true },
    { name := "vcmpfalse_osss", group := 90, modifiers := [0x1B, 0xF3, 0xC0], avx := true },
    { name := "vcmpneq_osps", group := 89, modifiers := [0x1C, 0x00, 0xC0], avx := true },
    { name := "vcmpneq_osss", group := 90, modifiers := [0x1C, 0xF3, 0xC0], avx := true },
    { name := "vcmpge_oqps", group := 89, modifiers := [0x1D, 0x00, 0xC0], avx := true },
    { name := "vcmpge_oqss", group := 90, modifiers := [0x1D, 0xF3, 0xC0], avx := true },
    { name := "vcmpgt_oqps", group := 89, modifiers := [0x1E, 0x00, 0xC0], avx := true },
    { name := "vcmpgt_oqss", group := 90, modifiers := [0x1E, 0xF3, 0xC0], avx := true },
    { name := "vcmptrue_usps", group := 89, modifiers := [0x1F, 0x00, 0xC0], avx := true },
    { name := "vcmptrue_usss", group := 90, modifiers := [0x1F, 0xF3, 0xC0], avx := true },
    { name := "cmpps", group := 91, modifiers := [0x00, 0xC2] },
    { name := "shufps", group := 91, modifiers := [0x00, 0xC6] },
    { name := "vcmpps", group := 93, modifiers := [0x00, 0xC2, 0xC0], avx := true },
    { name := "vshufps", group := 93, modifiers := [0x00, 0xC6, 0xC0], avx := true },
    { name := "cmpss", group := 94, modifiers := [0xF3, 0xC2] },
    { name := "vcmpss", group := 94, modifiers := [0xF3, 0xC2, 0xC0], avx := true },
    { name := "ldmxcsr", group := 95, modifiers := [0x02] },
    { name := "stmxcsr", group := 95, modifiers := [0x03] },
    { name := "vldmxcsr", group := 95, modifiers := [0x02, 0xC0], avx := true },
    { name := "vstmxcsr", group := 95, modifiers := [0x03, 0xC0], avx := true },
    { name := "maskmovq", group := 96 },
    { name := "movaps", group := 97, modifiers := [0x00, 0x28, 0x01] },
    { name := "movups", group := 97, modifiers := [0x00, 0x10, 0x01] },
    { name := "vmovaps", group := 97, modifiers := [0x00, 0x28, 0x01], avx := true },
    { name := "vmovups", group := 97, modifiers := [0x00, 0x10, 0x01], avx := true },
    { name := "movhlps", group := 98, modifiers := [0x12] },
    { name := "movlhps", group := 98, modifiers := [0x16] },
    { name := "vmovhlps", group := 98, modifiers := [0x12, 0xC0], avx := true },
    { name := "vmovlhps", group := 98, modifiers := [0x16, 0xC0], avx := true },
    { name := "movhps", group := 99, modifiers := [0x00, 0x16] },
    { name := "movlps", group := 99, modifiers := [0x00, 0x12] },
    { name := "vmovhps", group := 99, modifiers := [0x00, 0x16, 0xC0], avx := true },
    { name := "vmovlps", group := 99, modifiers := [0x00, 0x12, 0xC0], avx := true },
    { name := "movmskps", group := 100 },
    { name := "vmovmskps", group := 100, modifiers := [0x00, 0xC0], avx := true },
    { name := "movntps", group := 101, modifiers := [0x00, 0x2B] },
    { name := "vmovntps", group := 101, modifiers := [0x00, 0x2B, 0xC0], avx := true },
    { name := "movntq", group := 102 },
    { name := "movss", group := 103 },
    { name := "vmovss", group := 103, modifiers := [0xC0], avx := true },
    { name := "pextrw", group := 104 },
    { name := "vpextrw", group := 104, modifiers := [0xC0], avx := true },
    { name := "pinsrw", group := 105 },
    { name := "vpinsrw", group := 105, modifiers := [0xC0], avx := true },
    { name := "pmovmskb", group := 106 },
    { name := "vpmovmskb", group := 106, modifiers := [0xC0], avx := true },
    { name := "pshufw", group := 107 },
    { name := "addsd", group := 108, modifiers := [0xF2, 0x58] },
    { name := "comisd", group := 108, modifiers := [0x66, 0x2F] },
    { name := "cvtdq2pd", group := 108, modifiers := [0xF3, 0xE6] },
    { name := "cvtps2pd", group := 108, modifiers := [0x00, 0x5A] },
    { name := "cvtsd2ss", group := 108, modifiers := [0xF2, 0x5A] },
    { name := "divsd", group := 108, modifiers := [0xF2, 0x5E] },
    { name := "maxsd", group := 108, modifiers := [0xF2, 0x5F] },
    { name := "minsd", group := 108, modifiers := [0xF2, 0x5D] },
    { name := "mulsd", group := 108, modifiers := [0xF2, 0x59] },
    { name := "subsd", group := 108, modifiers := [0xF2, 0x5C] },
    { name := "sqrtsd", group := 108, modifiers := [0xF2, 0x51] },
    { name := "ucomisd", group := 108, modifiers := [0x66, 0x2E] },
    { name := "vaddsd", group := 108, modifiers := [0xF2, 0x58, 0xC0], avx := true },
    { name := "vcvtsd2ss", group := 108, modifiers := [0xF2, 0x5A, 0xC0], avx := true },
    { name := "vdivsd", group := 108, modifiers := [0xF2, 0x5E, 0xC0], avx := true },
    { name := "vmaxsd", group := 108, modifiers := [0xF2, 0x5F, 0xC0], avx := true },
    { name := "vminsd", group := 108, modifiers := [0xF2, 0x5D, 0xC0], avx := true },
    { name := "vmulsd", group := 108, modifiers := [0xF2, 0x59, 0xC0], avx := true },
    { name := "vsubsd", group := 108, modifiers := [0xF2, 0x5C, 0xC0], avx := true },
    { name := "vsqrtsd", group := 108, modifiers := [0xF2, 0x51, 0xC0], avx := true },
    { name := "addpd", group := 83, modifiers := [0x66, 0x58], cpu := some [16] },
    { name := "andnpd", group := 83, modifiers := [0x66, 0x55], cpu := some [16] },
    { name := "andpd", group := 83, modifiers := [0x66, 0x54], cpu := some [16] },
    { name := "cvtdq2ps", group := 83, modifiers := [0x00, 0x5B], cpu := some [16] },
    { name := "cvtpd2dq", group := 83, modifiers := [0xF2, 0xE6], cpu := some [16] },
    { name := "cvtpd2ps", group := 83, modifiers := [0x66, 0x5A], cpu := some [16] },
    { name := "cvtps2dq", group := 83, modifiers := [0x66, 0x5B], cpu := some [16] },
    { name := "divpd", group := 83, modifiers := [0x66, 0x5E], cpu := some [16] },
    { name := "maxpd", group := 83, modifiers := [0x66, 0x5F], cpu := some [16] },
    { name := "minpd", group := 83, modifiers := [0x66, 0x5D], cpu := some [16] },
    { name := "mulpd", group := 83, modifiers := [0x66, 0x59], cpu := some [16] },
    { name := "orpd", group := 83, modifiers := [0x66, 0x56], cpu := some [16] },
    { name := "sqrtpd", group := 83, modifiers := [0x66, 0x51], cpu := some [16] },
    { name := "subpd", group := 83, modifiers := [0x66, 0x5C], cpu := some [16] },
    { name := "unpckhpd", group := 83, modifiers := [0x66, 0x15], cpu := some [16] },
    { name := "unpcklpd", group := 83, modifiers := [0x66, 0x14], cpu := some [16] },
    { name := "xorpd", group := 83, modifiers := [0x66, 0x57], cpu := some [16] },
    { name := "vaddpd", group := 81, modifiers := [0x66, 0x58, 0xC0], avx := true },
    { name := "vandnpd", group := 81, modifiers := [0x66, 0x55, 0xC0], avx := true },
    { name := "vandpd", group := 81, modifiers := [0x66, 0x54, 0xC0], avx := true },
    { name := "vdivpd", group := 81, modifiers := [0x66, 0x5E, 0xC0], avx := true },
    { name := "vmaxpd", group := 81, modifiers := [0x66, 0x5F, 0xC0], avx := true },
    { name := "vminpd", group := 81, modifiers := [0x66, 0x5D, 0xC0], avx := true },
    { name := "vmulpd", group := 81, modifiers := [0x66, 0x59, 0xC0], avx := true },
    { name := "vorpd", group := 81, modifiers := [0x66, 0x56, 0xC0], avx := true },
    { name := "vsubpd", group := 81, modifiers := [0x66, 0x5C, 0xC0], avx := true },
    { name := "vunpckhpd", group := 81, modifiers := [0x66, 0x15, 0xC0], avx := true },
    { name := "vunpcklpd", group := 81, modifiers := [0x66, 0x14, 0xC0], avx := true },
    { name := "vxorpd", group := 81, modifiers := [0x66, 0x57, 0xC0], avx := true },
    { name := "cmpeqsd", group := 109, modifiers := [0x00, 0xF2] },
    { name := "cmpeqpd", group := 89, modifiers := [0x00, 0x66] } ]

end Verif.Match
