/-
The table of modules/arch/x86/gen_x86_insn.py: the calls of `add_insn`, with its loops written out.  Made by reading the syntax tree
of the script; nothing but literals and the arithmetic on them is evaluated.
-/
import Verif.Match.Gen

namespace Verif.Match

/-- gen_x86_insn.py:7261-8457. -/
def names3 : List RawInsn :=
  [ { name := "vfmaddsub132pd", group := 190, modifiers := [0x96] },
    { name := "vfmsubadd132pd", group := 190, modifiers := [0x97] },
    { name := "vfmadd213ps", group := 189, modifiers := [0xA8] },
    { name := "vfmsub213ps", group := 189, modifiers := [0xAA] },
    { name := "vfnmsub213ps", group := 189, modifiers := [0xAE] },
    { name := "vfnmadd213ps", group := 189, modifiers := [0xAC] },
    { name := "vfmadd213pd", group := 190, modifiers := [0xA8] },
    { name := "vfmsub213pd", group := 190, modifiers := [0xAA] },
    { name := "vfnmsub213pd", group := 190, modifiers := [0xAE] },
    { name := "vfnmadd213pd", group := 190, modifiers := [0xAC] },
    { name := "vfmadd213ss", group := 191, modifiers := [0xA9] },
    { name := "vfmsub213ss", group := 191, modifiers := [0xAB] },
    { name := "vfnmsub213ss", group := 191, modifiers := [0xAF] },
    { name := "vfnmadd213ss", group := 191, modifiers := [0xAD] },
    { name := "vfmadd213sd", group := 192, modifiers := [0xA9] },
    { name := "vfmsub213sd", group := 192, modifiers := [0xAB] },
    { name := "vfnmsub213sd", group := 192, modifiers := [0xAF] },
    { name := "vfnmadd213sd", group := 192, modifiers := [0xAD] },
    { name := "vfmaddsub213ps", group := 189, modifiers := [0xA6] },
    { name := "vfmsubadd213ps", group := 189, modifiers := [0xA7] },
    { name := "vfmaddsub213pd", group := 190, modifiers := [0xA6] },
    { name := "vfmsubadd213pd", group := 190, modifiers := [0xA7] },
    { name := "vfmadd231ps", group := 189, modifiers := [0xB8] },
    { name := "vfmsub231ps", group := 189, modifiers := [0xBA] },
    { name := "vfnmsub231ps", group := 189, modifiers := [0xBE] },
    { name := "vfnmadd231ps", group := 189, modifiers := [0xBC] },
    { name := "vfmadd231pd", group := 190, modifiers := [0xB8] },
    { name := "vfmsub231pd", group := 190, modifiers := [0xBA] },
    { name := "vfnmsub231pd", group := 190, modifiers := [0xBE] },
    { name := "vfnmadd231pd", group := 190, modifiers := [0xBC] },
    { name := "vfmadd231ss", group := 191, modifiers := [0xB9] },
    { name := "vfmsub231ss", group := 191, modifiers := [0xBB] },
    { name := "vfnmsub231ss", group := 191, modifiers := [0xBF] },
    { name := "vfnmadd231ss", group := 191, modifiers := [0xBD] },
    { name := "vfmadd231sd", group := 192, modifiers := [0xB9] },
    { name := "vfmsub231sd", group := 192, modifiers := [0xBB] },
    { name := "vfnmsub231sd", group := 192, modifiers := [0xBF] },
    { name := "vfnmadd231sd", group := 192, modifiers := [0xBD] },
    { name := "vfmaddsub231ps", group := 189, modifiers := [0xB6] },
    { name := "vfmsubadd231ps", group := 189, modifiers := [0xB7] },
    { name := "vfmaddsub231pd", group := 190, modifiers := [0xB6] },
    { name := "vfmsubadd231pd", group := 190, modifiers := [0xB7] },
    { name := "aesenc", group := 193, modifiers := [0x38, 0xDC] },
    { name := "aesenclast", group := 193, modifiers := [0x38, 0xDD] },
    { name := "aesdec", group := 193, modifiers := [0x38, 0xDE] },
    { name := "aesdeclast", group := 193, modifiers := [0x38, 0xDF] },
    { name := "vaesenc", group := 193, modifiers := [0x38, 0xDC, 0xC0], avx := true },
    { name := "vaesenclast", group := 193, modifiers := [0x38, 0xDD, 0xC0], avx := true },
    { name := "vaesdec", group := 193, modifiers := [0x38, 0xDE, 0xC0], avx := true },
    { name := "vaesdeclast", group := 193, modifiers := [0x38, 0xDF, 0xC0], avx := true },
    { name := "aesimc", group := 194, modifiers := [0x38, 0xDB] },
    { name := "vaesimc", group := 194, modifiers := [0x38, 0xDB, 0xC0], avx := true },
    { name := "aeskeygenassist", group := 195, modifiers := [0x3A, 0xDF] },
    { name := "vaeskeygenassist", group := 195, modifiers := [0x3A, 0xDF, 0xC0], avx := true },
    { name := "pclmulqdq", group := 196, modifiers := [0x3A, 0x44] },
    { name := "vpclmulqdq", group := 196, modifiers := [0x3A, 0x44, 0xC0], avx := true },
    { name := "pclmullqlqdq", group := 197, modifiers := [0x00] },
    { name := "vpclmullqlqdq", group := 197, modifiers := [0x00, 0xC0], avx := true },
    { name := "pclmulhqlqdq", group := 197, modifiers := [0x01] },
    { name := "vpclmulhqlqdq", group := 197, modifiers := [0x01, 0xC0], avx := true },
    { name := "pclmullqhqdq", group := 197, modifiers := [0x10] },
    { name := "vpclmullqhqdq", group := 197, modifiers := [0x10, 0xC0], avx := true },
    { name := "pclmulhqhqdq", group := 197, modifiers := [0x11] },
    { name := "vpclmulhqhqdq", group := 197, modifiers := [0x11, 0xC0], avx := true },
    { name := "rdrand", group := 198, modifiers := [0x06], cpu := some [43] },
    { name := "rdseed", group := 198, modifiers := [0x07], cpu := some [56] },
    { name := "rdfsbase", group := 199, modifiers := [0x00], only64 := true },
    { name := "rdgsbase", group := 199, modifiers := [0x01], only64 := true },
    { name := "wrfsbase", group := 199, modifiers := [0x02], only64 := true },
    { name := "wrgsbase", group := 199, modifiers := [0x03], only64 := true },
    { name := "vcvtps2ph", group := 200, modifiers := [0x66, 0x1D], avx := true },
    { name := "vcvtph2ps", group := 201, modifiers := [0x66, 0x13], avx := true },
    { name := "extrq", group := 202 },
    { name := "insertq", group := 203 },
    { name := "movntsd", group := 204 },
    { name := "movntss", group := 205 },
    { name := "vfrczpd", group := 206, modifiers := [0x01] },
    { name := "vfrczps", group := 206, modifiers := [0x00] },
    { name := "vfrczsd", group := 207 },
    { name := "vfrczss", group := 208 },
    { name := "vpcmov", group := 209 },
    { name := "vpcomb", group := 211, modifiers := [0xCC] },
    { name := "vpcomltb", group := 210, modifiers := [0xCC, 0x00] },
    { name := "vpcomleb", group := 210, modifiers := [0xCC, 0x01] },
    { name := "vpcomgtb", group := 210, modifiers := [0xCC, 0x02] },
    { name := "vpcomgeb", group := 210, modifiers := [0xCC, 0x03] },
    { name := "vpcomeqb", group := 210, modifiers := [0xCC, 0x04] },
    { name := "vpcomneqb", group := 210, modifiers := [0xCC, 0x05] },
    { name := "vpcomfalseb", group := 210, modifiers := [0xCC, 0x06] },
    { name := "vpcomtrueb", group := 210, modifiers := [0xCC, 0x07] },
    { name := "vpcomneb", group := 210, modifiers := [0xCC, 0x05] },
    { name := "vpcomd", group := 211, modifiers := [0xCE] },
    { name := "vpcomltd", group := 210, modifiers := [0xCE, 0x00] },
    { name := "vpcomled", group := 210, modifiers := [0xCE, 0x01] },
    { name := "vpcomgtd", group := 210, modifiers := [0xCE, 0x02] },
    { name := "vpcomged", group := 210, modifiers := [0xCE, 0x03] },
    { name := "vpcomeqd", group := 210, modifiers := [0xCE, 0x04] },
    { name := "vpcomneqd", group := 210, modifiers := [0xCE, 0x05] },
    { name := "vpcomfalsed", group := 210, modifiers := [0xCE, 0x06] },
    { name := "vpcomtrued", group := 210, modifiers := [0xCE, 0x07] },
    { name := "vpcomned", group := 210, modifiers := [0xCE, 0x05] },
    { name := "vpcomw", group := 211, modifiers := [0xCD] },
    { name := "vpcomltw", group := 210, modifiers := [0xCD, 0x00] },
    { name := "vpcomlew", group := 210, modifiers := [0xCD, 0x01] },
    { name := "vpcomgtw", group := 210, modifiers := [0xCD, 0x02] },
    { name := "vpcomgew", group := 210, modifiers := [0xCD, 0x03] },
    { name := "vpcomeqw", group := 210, modifiers := [0xCD, 0x04] },
    { name := "vpcomneqw", group := 210, modifiers := [0xCD, 0x05] },
    { name := "vpcomfalsew", group := 210, modifiers := [0xCD, 0x06] },
    { name := "vpcomtruew", group := 210, modifiers := [0xCD, 0x07] },
    { name := "vpcomnew", group := 210, modifiers := [0xCD, 0x05] },
    { name := "vpcomq", group := 211, modifiers := [0xCF] },
    { name := "vpcomltq", group := 210, modifiers := [0xCF, 0x00] },
    { name := "vpcomleq", group := 210, modifiers := [0xCF, 0x01] },
    { name := "vpcomgtq", group := 210, modifiers := [0xCF, 0x02] },
    { name := "vpcomgeq", group := 210, modifiers := [0xCF, 0x03] },
    { name := "vpcomeqq", group := 210, modifiers := [0xCF, 0x04] },
    { name := "vpcomneqq", group := 210, modifiers := [0xCF, 0x05] },
    { name := "vpcomfalseq", group := 210, modifiers := [0xCF, 0x06] },
    { name := "vpcomtrueq", group := 210, modifiers := [0xCF, 0x07] },
    { name := "vpcomneq", group := 210, modifiers := [0xCF, 0x05] },
    { name := "vpcomub", group := 211, modifiers := [0xEC] },
    { name := "vpcomltub", group := 210, modifiers := [0xEC, 0x00] },
    { name := "vpcomleub", group := 210, modifiers := [0xEC, 0x01] },
    { name := "vpcomgtub", group := 210, modifiers := [0xEC, 0x02] },
    { name := "vpcomgeub", group := 210, modifiers := [0xEC, 0x03] },
    { name := "vpcomequb", group := 210, modifiers := [0xEC, 0x04] },
    { name := "vpcomnequb", group := 210, modifiers := [0xEC, 0x05] },
    { name := "vpcomfalseub", group := 210, modifiers := [0xEC, 0x06] },
    { name := "vpcomtrueub", group := 210, modifiers := [0xEC, 0x07] },
    { name := "vpcomneub", group := 210, modifiers := [0xEC, 0x05] },
    { name := "vpcomud", group := 211, modifiers := [0xEE] },
    { name := "vpcomltud", group := 210, modifiers := [0xEE, 0x00] },
    { name := "vpcomleud", group := 210, modifiers := [0xEE, 0x01] },
    { name := "vpcomgtud", group := 210, modifiers := [0xEE, 0x02] },
    { name := "vpcomgeud", group := 210, modifiers := [0xEE, 0x03] },
    { name := "vpcomequd", group := 210, modifiers := [0xEE, 0x04] },
    { name := "vpcomnequd", group := 210, modifiers := [0xEE, 0x05] },
    { name := "vpcomfalseud", group := 210, modifiers := [0xEE, 0x06] },
    { name := "vpcomtrueud", group := 210, modifiers := [0xEE, 0x07] },
    { name := "vpcomneud", group := 210, modifiers := [0xEE, 0x05] },
    { name := "vpcomuq", group := 211, modifiers := [0xEF] },
    { name := "vpcomltuq", group := 210, modifiers := [0xEF, 0x00] },
    { name := "vpcomleuq", group := 210, modifiers := [0xEF, 0x01] },
    { name := "vpcomgtuq", group := 210, modifiers := [0xEF, 0x02] },
    { name := "vpcomgeuq", group := 210, modifiers := [0xEF, 0x03] },
    { name := "vpcomequq", group := 210, modifiers := [0xEF, 0x04] },
    { name := "vpcomnequq", group := 210, modifiers := [0xEF, 0x05] },
    { name := "vpcomfalseuq", group := 210, modifiers := [0xEF, 0x06] },
    { name := "vpcomtrueuq", group := 210, modifiers := [0xEF, 0x07] },
    { name := "vpcomneuq", group := 210, modifiers := [0xEF, 0x05] },
    { name := "vpcomuw", group := 211, modifiers := [0xED] },
    { name := "vpcomltuw", group := 210, modifiers := [0xED, 0x00] },
    { name := "vpcomleuw", group := 210, modifiers := [0xED, 0x01] },
    { name := "vpcomgtuw", group := 210, modifiers := [0xED, 0x02] },
    { name := "vpcomgeuw", group := 210, modifiers := [0xED, 0x03] },
    { name := "vpcomequw", group := 210, modifiers := [0xED, 0x04] },
    { name := "vpcomnequw", group := 210, modifiers := [0xED, 0x05] },
    { name := "vpcomfalseuw", group := 210, modifiers := [0xED, 0x06] },
    { name := "vpcomtrueuw", group := 210, modifiers := [0xED, 0x07] },
    { name := "vpcomneuw", group := 210, modifiers := [0xED, 0x05] },
    { name := "vphaddbw", group := 212, modifiers := [0xC1] },
    { name := "vphaddbd", group := 212, modifiers := [0xC2] },
    { name := "vphaddbq", group := 212, modifiers := [0xC3] },
    { name := "vphaddwd", group := 212, modifiers := [0xC6] },
    { name := "vphaddwq", group := 212, modifiers := [0xC7] },
    { name := "vphadddq", group := 212, modifiers := [0xCB] },
    { name := "vphaddubw", group := 212, modifiers := [0xD1] },
    { name := "vphaddubd", group := 212, modifiers := [0xD2] },
    { name := "vphaddubq", group := 212, modifiers := [0xD3] },
    { name := "vphadduwd", group := 212, modifiers := [0xD6] },
    { name := "vphadduwq", group := 212, modifiers := [0xD7] },
    { name := "vphaddudq", group := 212, modifiers := [0xDB] },
    { name := "vphsubbw", group := 212, modifiers := [0xE1] },
    { name := "vphsubwd", group := 212, modifiers := [0xE2] },
    { name := "vphsubdq", group := 212, modifiers := [0xE3] },
    { name := "vpmacsdd", group := 213, modifiers := [0x9E] },
    { name := "vpmacsdqh", group := 213, modifiers := [0x9F] },
    { name := "vpmacsdql", group := 213, modifiers := [0x97] },
    { name := "vpmacssdd", group := 213, modifiers := [0x8E] },
    { name := "vpmacssdqh", group := 213, modifiers := [0x8F] },
    { name := "vpmacssdql", group := 213, modifiers := [0x87] },
    { name := "vpmacsswd", group := 213, modifiers := [0x86] },
    { name := "vpmacssww", group := 213, modifiers := [0x85] },
    { name := "vpmacswd", group := 213, modifiers := [0x96] },
    { name := "vpmacsww", group := 213, modifiers := [0x95] },
    { name := "vpmadcsswd", group := 213, modifiers := [0xA6] },
    { name := "vpmadcswd", group := 213, modifiers := [0xB6] },
    { name := "vpperm", group := 214 },
    { name := "vprotb", group := 215, modifiers := [0x00] },
    { name := "vprotw", group := 215, modifiers := [0x01] },
    { name := "vprotd", group := 215, modifiers := [0x02] },
    { name := "vprotq", group := 215, modifiers := [0x03] },
    { name := "vpshab", group := 216, modifiers := [0x98] },
    { name := "vpshlb", group := 216, modifiers := [0x94] },
    { name := "vpshaw", group := 216, modifiers := [0x99] },
    { name := "vpshlw", group := 216, modifiers := [0x95] },
    { name := "vpshad", group := 216, modifiers := [0x9A] },
    { name := "vpshld", group := 216, modifiers := [0x96] },
    { name := "vpshaq", group := 216, modifiers := [0x9B] },
    { name := "vpshlq", group := 216, modifiers := [0x97] },
    { name := "vfmaddpd", group := 217, modifiers := [0x69] },
    { name := "vfmaddps", group := 217, modifiers := [0x68] },
    { name := "vfmaddsubpd", group := 217, modifiers := [0x5D] },
    { name := "vfmaddsubps", group := 217, modifiers := [0x5C] },
    { name := "vfmsubaddpd", group := 217, modifiers := [0x5F] },
    { name := "vfmsubaddps", group := 217, modifiers := [0x5E] },
    { name := "vfmsubpd", group := 217, modifiers := [0x6D] },
    { name := "vfmsubps", group := 217, modifiers := [0x6C] },
    { name := "vfnmaddpd", group := 217, modifiers := [0x79] },
    { name := "vfnmaddps", group := 217, modifiers := [0x78] },
    { name := "vfnmsubpd", group := 217, modifiers := [0x7D] },
    { name := "vfnmsubps", group := 217, modifiers := [0x7C] },
    { name := "vfmaddsd", group := 219, modifiers := [0x6B] },
    { name := "vfmaddss", group := 218, modifiers := [0x6A] },
    { name := "vfmsubsd", group := 219, modifiers := [0x6F] },
    { name := "vfmsubss", group := 218, modifiers := [0x6E] },
    { name := "vfnmaddsd", group := 219, modifiers := [0x7B] },
    { name := "vfnmaddss", group := 218, modifiers := [0x7A] },
    { name := "vfnmsubsd", group := 219, modifiers := [0x7F] },
    { name := "vfnmsubss", group := 218, modifiers := [0x7E] },
    { name := "xgetbv", group := 5, modifiers := [0x0F, 0x01, 0xD0], cpu := some [33, 3] },
    { name := "xsetbv", group := 5, modifiers := [0x0F, 0x01, 0xD1], cpu := some [33, 3, 25] },
    { name := "xsave", group := 7, modifiers := [0x04, 0x0F, 0xAE], cpu := some [33, 3] },
    { name := "xrstor", group := 7, modifiers := [0x05, 0x0F, 0xAE], cpu := some [33, 3] },
    { name := "xsaveopt", group := 7, modifiers := [0x06, 0x0F, 0xAE], cpu := some [44] },
    { name := "xsaveopt64", group := 220, modifiers := [0x06, 0x0F, 0xAE], cpu := some [44], only64 := true },
    { name := "movbe", group := 221 },
    { name := "tzcnt", group := 148, modifiers := [0xBC], cpu := some [48] },
    { name := "blsr", group := 222, modifiers := [0x00, 0xF3, 0x01], cpu := some [48] },
    { name := "blsmsk", group := 222, modifiers := [0x00, 0xF3, 0x02], cpu := some [48] },
    { name := "blsi", group := 222, modifiers := [0x00, 0xF3, 0x03], cpu := some [48] },
    { name := "rorx", group := 223, modifiers := [0xF2, 0x3A, 0xF0], cpu := some [49] },
    { name := "andn", group := 224, modifiers := [0x00, 0x38, 0xF2], cpu := some [48] },
    { name := "pdep", group := 224, modifiers := [0xF2, 0x38, 0xF5], cpu := some [49] },
    { name := "pext", group := 224, modifiers := [0xF3, 0x38, 0xF5], cpu := some [49] },
    { name := "bzhi", group := 225, modifiers := [0x00, 0x38, 0xF5], cpu := some [49] },
    { name := "shlx", group := 225, modifiers := [0x66, 0x38, 0xF7], cpu := some [49] },
    { name := "shrx", group := 225, modifiers := [0xF2, 0x38, 0xF7], cpu := some [49] },
    { name := "sarx", group := 225, modifiers := [0xF3, 0x38, 0xF7], cpu := some [49] },
    { name := "mulx", group := 224, modifiers := [0xF2, 0x38, 0xF6], cpu := some [49] },
    { name := "bextr", group := 226 },
    { name := "invpcid", group := 227 },
    { name := "SHA1MSG1", group := 228 },
    { name := "SHA1MSG2", group := 229 },
    { name := "SHA1NEXTE", group := 230 },
    { name := "SHA1RNDS4", group := 231 },
    { name := "SHA256MSG1", group := 232 },
    { name := "SHA256MSG2", group := 233 },
    { name := "SHA256RNDS2", group := 234 },
    { name := "clac", group := 5, modifiers := [0x0F, 0x01, 0xCA], cpu := some [55] },
    { name := "stac", group := 5, modifiers := [0x0F, 0x01, 0xCB], cpu := some [55] },
    { name := "adcx", group := 235, modifiers := [0x66, 0xF6], cpu := some [57] },
    { name := "adox", group := 235, modifiers := [0xF3, 0xF6], cpu := some [57] },
    { name := "blcfill", group := 236, modifiers := [0x01, 0x01] },
    { name := "blci", group := 236, modifiers := [0x02, 0x06] },
    { name := "blcic", group := 236, modifiers := [0x01, 0x05] },
    { name := "blcmsk", group := 236, modifiers := [0x02, 0x01] },
    { name := "blcs", group := 236, modifiers := [0x01, 0x03] },
    { name := "blsfill", group := 236, modifiers := [0x01, 0x02] },
    { name := "blsic", group := 236, modifiers := [0x01, 0x06] },
    { name := "t1mskc", group := 236, modifiers := [0x01, 0x07] },
    { name := "tzmsk", group := 236, modifiers := [0x01, 0x04] },
    { name := "prefetch", group := 7, modifiers := [0x00, 0x0F, 0x0D], cpu := some [18] },
    { name := "prefetchw", group := 7, modifiers := [0x01, 0x0F, 0x0D], cpu := some [58] },
    { name := "femms", group := 4, modifiers := [0x0F, 0x0E], cpu := some [18] },
    { name := "pavgusb", group := 237, modifiers := [0xBF] },
    { name := "pf2id", group := 237, modifiers := [0x1D] },
    { name := "pf2iw", group := 237, modifiers := [0x1C], cpu := some [11, 18] },
    { name := "pfacc", group := 237, modifiers := [0xAE] },
    { name := "pfadd", group := 237, modifiers := [0x9E] },
    { name := "pfcmpeq", group := 237, modifiers := [0xB0] },
    { name := "pfcmpge", group := 237, modifiers := [0x90] },
    { name := "pfcmpgt", group := 237, modifiers := [0xA0] },
    { name := "pfmax", group := 237, modifiers := [0xA4] },
    { name := "pfmin", group := 237, modifiers := [0x94] },
    { name := "pfmul", group := 237, modifiers := [0xB4] },
    { name := "pfnacc", group := 237, modifiers := [0x8A], cpu := some [11, 18] },
    { name := "pfpnacc", group := 237, modifiers := [0x8E], cpu := some [11, 18] },
    { name := "pfrcp", group := 237, modifiers := [0x96] },
    { name := "pfrcpit1", group := 237, modifiers := [0xA6] },
    { name := "pfrcpit2", group := 237, modifiers := [0xB6] },
    { name := "pfrsqit1", group := 237, modifiers := [0xA7] },
    { name := "pfrsqrt", group := 237, modifiers := [0x97] },
    { name := "pfsub", group := 237, modifiers := [0x9A] },
    { name := "pfsubr", group := 237, modifiers := [0xAA] },
    { name := "pi2fd", group := 237, modifiers := [0x0D] },
    { name := "pi2fw", group := 237, modifiers := [0x0C], cpu := some [11, 18] },
    { name := "pmulhrw", group := 237, modifiers := [0xB7] },
    { name := "pswapd", group := 237, modifiers := [0xBB], cpu := some [11, 18] },
    { name := "syscall", group := 4, modifiers := [0x0F, 0x05], cpu := some [6, 20] },
    { name := "sysret", group := 4, modifiers := [0x0F, 0x07], cpu := some [6, 20, 25] },
    { name := "sysretl", group := 4, suffix := some .l, modifiers := [0x0F, 0x07], cpu := some [6, 20, 25] },
    { name := "sysretq", group := 4, suffix := some .q, modifiers := [0x0F, 0x07], cpu := some [6, 20, 25] },
    { name := "lzcnt", group := 148, modifiers := [0xBD], cpu := some [51] },
    { name := "swapgs", group := 5, modifiers := [0x0F, 0x01, 0xF8], only64 := true },
    { name := "rdtscp", group := 5, modifiers := [0x0F, 0x01, 0xF9], cpu := some [6, 20, 25] },
    { name := "cmpxchg16b", group := 238 },
    { name := "clgi", group := 5, modifiers := [0x0F, 0x01, 0xDD], cpu := some [26] },
    { name := "stgi", group := 5, modifiers := [0x0F, 0x01, 0xDC], cpu := some [26] },
    { name := "vmmcall", group := 5, modifiers := [0x0F, 0x01, 0xD9], cpu := some [26] },
    { name := "invlpga", group := 239 },
    { name := "skinit", group := 240 },
    { name := "vmload", group := 241, modifiers := [0xDA] },
    { name := "vmrun", group := 241, modifiers := [0xD8] },
    { name := "vmsave", group := 241, modifiers := [0xDB] },
    { name := "monitorx", group := 5, modifiers := [0x0F, 0x01, 0xFA], cpu := some [20] },
    { name := "mwaitx", group := 5, modifiers := [0x0F, 0x01, 0xFB], cpu := some [20] },
    { name := "clzero", group := 5, modifiers := [0x0F, 0x01, 0xFC], cpu := some [20] },
    { name := "xstore", group := 242, modifiers := [0xC0, 0x00, 0xA7] },
    { name := "xstorerng", group := 242, modifiers := [0xC0, 0x00, 0xA7] },
    { name := "xcryptecb", group := 242, modifiers := [0xC8, 0xF3, 0xA7] },
    { name := "xcryptcbc", group := 242, modifiers := [0xD0, 0xF3, 0xA7] },
    { name := "xcryptctr", group := 242, modifiers := [0xD8, 0xF3, 0xA7] },
    { name := "xcryptcfb", group := 242, modifiers := [0xE0, 0xF3, 0xA7] },
    { name := "xcryptofb", group := 242, modifiers := [0xE8, 0xF3, 0xA7] },
    { name := "montmul", group := 242, modifiers := [0xC0, 0xF3, 0xA6] },
    { name := "xsha1", group := 242, modifiers := [0xC8, 0xF3, 0xA6] },
    { name := "xsha256", group := 242, modifiers := [0xD0, 0xF3, 0xA6] },
    { name := "paddsiw", group := 243, modifiers := [0x51] },
    { name := "paveb", group := 243, modifiers := [0x50] },
    { name := "pdistib", group := 243, modifiers := [0x54] },
    { name := "pmagw", group := 243, modifiers := [0x52] },
    { name := "pmulhriw", group := 243, modifiers := [0x5D] },
    { name := "pmulhrwc", group := 243, modifiers := [0x59] },
    { name := "pmvgezb", group := 243, modifiers := [0x5C] },
    { name := "pmvlzb", group := 243, modifiers := [0x5B] },
    { name := "pmvnzb", group := 243, modifiers := [0x5A] },
    { name := "pmvzb", group := 243, modifiers := [0x58] },
    { name := "psubsiw", group := 243, modifiers := [0x55] },
    { name := "pmachriw", group := 244 },
    { name := "smint", group := 4, modifiers := [0x0F, 0x38], cpu := some [6, 19] },
    { name := "smintold", group := 4, modifiers := [0x0F, 0x7E], cpu := some [4, 19, 24] },
    { name := "rdshr", group := 245, modifiers := [0x00] },
    { name := "wrshr", group := 245, modifiers := [0x01] },
    { name := "rsdc", group := 246 },
    { name := "rsldt", group := 247, modifiers := [0x7B] },
    { name := "rsts", group := 247, modifiers := [0x7D] },
    { name := "svldt", group := 247, modifiers := [0x7A] },
    { name := "svts", group := 247, modifiers := [0x7C] },
    { name := "svdc", group := 248 },
    { name := "fsetpm", group := 4, modifiers := [0xDB, 0xE4], cpu := some [2, 13, 24] },
    { name := "loadall", group := 4, modifiers := [0x0F, 0x07], cpu := some [3, 23] },
    { name := "loadall286", group := 4, modifiers := [0x0F, 0x05], cpu := some [2, 23] },
    { name := "salc", group := 2, modifiers := [0xD6], cpu := some [23], not64 := true },
    { name := "smi", group := 2, modifiers := [0xF1], cpu := some [3, 23] },
    { name := "ibts", group := 249 },
    { name := "umov", group := 250 },
    { name := "xbts", group := 251 } ]

end Verif.Match
