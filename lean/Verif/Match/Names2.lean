/-
The table of modules/arch/x86/gen_x86_insn.py: the calls of `add_insn`, with its loops written out.  Made by reading the syntax tree
of the script; nothing but literals and the arithmetic on them is evaluated.
-/
import Verif.Match.Gen

namespace Verif.Match

/-- gen_x86_insn.py:5228-7262. -/
def names2 : List RawInsn :=
  [ { name := "cmpltsd", group := 109, modifiers := [0x01, 0xF2] },
    { name := "cmpltpd", group := 89, modifiers := [0x01, 0x66] },
    { name := "cmplesd", group := 109, modifiers := [0x02, 0xF2] },
    { name := "cmplepd", group := 89, modifiers := [0x02, 0x66] },
    { name := "cmpunordsd", group := 109, modifiers := [0x03, 0xF2] },
    { name := "cmpunordpd", group := 89, modifiers := [0x03, 0x66] },
    { name := "cmpneqsd", group := 109, modifiers := [0x04, 0xF2] },
    { name := "cmpneqpd", group := 89, modifiers := [0x04, 0x66] },
    { name := "cmpnltsd", group := 109, modifiers := [0x05, 0xF2] },
    { name := "cmpnltpd", group := 89, modifiers := [0x05, 0x66] },
    { name := "cmpnlesd", group := 109, modifiers := [0x06, 0xF2] },
    { name := "cmpnlepd", group := 89, modifiers := [0x06, 0x66] },
    { name := "cmpordsd", group := 109, modifiers := [0x07, 0xF2] },
    { name := "cmpordpd", group := 89, modifiers := [0x07, 0x66] },
    { name := "vcmpeqsd", group := 109, modifiers := [0x00, 0xF2, 0xC0], avx := true },
    { name := "vcmpeqpd", group := 89, modifiers := [0x00, 0x66, 0xC0], avx := true },
    { name := "vcmpltsd", group := 109, modifiers := [0x01, 0xF2, 0xC0], avx := true },
    { name := "vcmpltpd", group := 89, modifiers := [0x01, 0x66, 0xC0], avx := true },
    { name := "vcmplesd", group := 109, modifiers := [0x02, 0xF2, 0xC0], avx := true },
    { name := "vcmplepd", group := 89, modifiers := [0x02, 0x66, 0xC0], avx := true },
    { name := "vcmpunordsd", group := 109, modifiers := [0x03, 0xF2, 0xC0], avx := true },
    { name := "vcmpunordpd", group := 89, modifiers := [0x03, 0x66, 0xC0], avx := true },
    { name := "vcmpneqsd", group := 109, modifiers := [0x04, 0xF2, 0xC0], avx := true },
    { name := "vcmpneqpd", group := 89, modifiers := [0x04, 0x66, 0xC0], avx := true },
    { name := "vcmpnltsd", group := 109, modifiers := [0x05, 0xF2, 0xC0], avx := true },
    { name := "vcmpnltpd", group := 89, modifiers := [0x05, 0x66, 0xC0], avx := true },
    { name := "vcmpnlesd", group := 109, modifiers := [0x06, 0xF2, 0xC0], avx := true },
    { name := "vcmpnlepd", group := 89, modifiers := [0x06, 0x66, 0xC0], avx := true },
    { name := "vcmpordsd", group := 109, modifiers := [0x07, 0xF2, 0xC0], avx := true },
    { name := "vcmpordpd", group := 89, modifiers := [0x07, 0x66, 0xC0], avx := true },
    { name := "vcmpeq_uqsd", group := 109, modifiers := [0x08, 0xF2, 0xC0], avx := true },
    { name := "vcmpeq_uqpd", group := 89, modifiers := [0x08, 0x66, 0xC0], avx := true },
    { name := "vcmpngesd", group := 109, modifiers := [0x09, 0xF2, 0xC0], avx := true },
    { name := "vcmpngepd", group := 89, modifiers := [0x09, 0x66, 0xC0], avx := true },
    { name := "vcmpngtsd", group := 109, modifiers := [0x0A, 0xF2, 0xC0], avx := true },
    { name := "vcmpngtpd", group := 89, modifiers := [0x0A, 0x66, 0xC0], avx := true },
    { name := "vcmpfalsesd", group := 109, modifiers := [0x0B, 0xF2, 0xC0], avx := true },
    { name := "vcmpfalsepd", group := 89, modifiers := [0x0B, 0x66, 0xC0], avx := true },
    { name := "vcmpneq_oqsd", group := 109, modifiers := [0x0C, 0xF2, 0xC0], avx := true },
    { name := "vcmpneq_oqpd", group := 89, modifiers := [0x0C, 0x66, 0xC0], avx := true },
    { name := "vcmpgesd", group := 109, modifiers := [0x0D, 0xF2, 0xC0], avx := true },
    { name := "vcmpgepd", group := 89, modifiers := [0x0D, 0x66, 0xC0], avx := true },
    { name := "vcmpgtsd", group := 109, modifiers := [0x0E, 0xF2, 0xC0], avx := true },
    { name := "vcmpgtpd", group := 89, modifiers := [0x0E, 0x66, 0xC0], avx := true },
    { name := "vcmptruesd", group := 109, modifiers := [0x0F, 0xF2, 0xC0], avx := true },
    { name := "vcmptruepd", group := 89, modifiers := [0x0F, 0x66, 0xC0], avx := true },
    { name := "vcmpeq_ossd", group := 109, modifiers := [0x10, 0xF2, 0xC0], avx := true },
    { name := "vcmpeq_ospd", group := 89, modifiers := [0x10, 0x66, 0xC0], avx := true },
    { name := "vcmplt_oqsd", group := 109, modifiers := [0x11, 0xF2, 0xC0], avx := true },
    { name := "vcmplt_oqpd", group := 89, modifiers := [0x11, 0x66, 0xC0], avx := true },
    { name := "vcmple_oqsd", group := 109, modifiers := [0x12, 0xF2, 0xC0], avx := true },
    { name := "vcmple_oqpd", group := 89, modifiers := [0x12, 0x66, 0xC0], avx := true },
    { name := "vcmpunord_ssd", group := 109, modifiers := [0x13, 0xF2, 0xC0], avx := true },
    { name := "vcmpunord_spd", group := 89, modifiers := [0x13, 0x66, 0xC0], avx := true },
    { name := "vcmpneq_ussd", group := 109, modifiers := [0x14, 0xF2, 0xC0], avx := true },
    { name := "vcmpneq_uspd", group := 89, modifiers := [0x14, 0x66, 0xC0], avx := true },
    { name := "vcmpnlt_uqsd", group := 109, modifiers := [0x15, 0xF2, 0xC0], avx := true },
    { name := "vcmpnlt_uqpd", group := 89, modifiers := [0x15, 0x66, 0xC0], avx := true },
    { name := "vcmpnle_uqsd", group := 109, modifiers := [0x16, 0xF2, 0xC0], avx := true },
    { name := "vcmpnle_uqpd", group := 89, modifiers := [0x16, 0x66, 0xC0], avx := true },
    { name := "vcmpord_ssd", group := 109, modifiers := [0x17, 0xF2, 0xC0], avx := true },
    { name := "vcmpord_spd", group := 89, modifiers := [0x17, 0x66, 0xC0], avx := true },
    { name := "vcmpeq_ussd", group := 109, modifiers := [0x18, 0xF2, 0xC0], avx := true },
    { name := "vcmpeq_uspd", group := 89, modifiers := [0x18, 0x66, 0xC0], avx := true },
    { name := "vcmpnge_uqsd", group := 109, modifiers := [0x19, 0xF2, 0xC0], avx := true },
    { name := "vcmpnge_uqpd", group := 89, modifiers := [0x19, 0x66, 0xC0], avx := true },
    { name := "vcmpngt_uqsd", group := 109, modifiers := [0x1A, 0xF2, 0xC0], avx := true },
    { name := "vcmpngt_uqpd", group := 89, modifiers := [0x1A, 0x66, 0xC0], avx := true },
    { name := "vcmpfalse_ossd", group := 109, modifiers := [0x1B, 0xF2, 0xC0], avx := true },
    { name := "vcmpfalse_ospd", group := 89, modifiers := [0x1B, 0x66, 0xC0], avx := true },
    { name := "vcmpneq_ossd", group := 109, modifiers := [0x1C, 0xF2, 0xC0], avx := true },
    { name := "vcmpneq_ospd", group := 89, modifiers := [0x1C, 0x66, 0xC0], avx := true },
    { name := "vcmpge_oqsd", group := 109, modifiers := [0x1D, 0xF2, 0xC0], avx := true },
    { name := "vcmpge_oqpd", group := 89, modifiers := [0x1D, 0x66, 0xC0], avx := true },
    { name := "vcmpgt_oqsd", group := 109, modifiers := [0x1E, 0xF2, 0xC0], avx := true },
    { name := "vcmpgt_oqpd", group := 89, modifiers := [0x1E, 0x66, 0xC0], avx := true },
    { name := "vcmptrue_ussd", group := 109, modifiers := [0x1F, 0xF2, 0xC0], avx := true },
    { name := "vcmptrue_uspd", group := 89, modifiers := [0x1F, 0x66, 0xC0], avx := true },
    { name := "cmppd", group := 91, modifiers := [0x66, 0xC2], cpu := some [16] },
    { name := "shufpd", group := 91, modifiers := [0x66, 0xC6], cpu := some [16] },
    { name := "vcmppd", group := 93, modifiers := [0x66, 0xC2, 0xC0], avx := true },
    { name := "vshufpd", group := 93, modifiers := [0x66, 0xC6, 0xC0], avx := true },
    { name := "cvtsi2sd", group := 87, modifiers := [0xF2, 0x2A], cpu := some [16] },
    { name := "vcvtsi2sd", group := 87, modifiers := [0xF2, 0x2A, 0xC0], avx := true },
    { name := "cvtsd2si", group := 110, modifiers := [0xF2, 0x2D] },
    { name := "vcvtsd2si", group := 110, modifiers := [0xF2, 0x2D, 0xC0], avx := true },
    { name := "cvtpd2pi", group := 111, modifiers := [0x66, 0x2D], cpu := some [16] },
    { name := "cvtpi2pd", group := 112, modifiers := [0x66, 0x2A], cpu := some [16] },
    { name := "vcmpsd", group := 41, modifiers := [0xC0], avx := true },
    { name := "movapd", group := 97, modifiers := [0x66, 0x28, 0x01], cpu := some [16] },
    { name := "movupd", group := 97, modifiers := [0x66, 0x10, 0x01], cpu := some [16] },
    { name := "vmovapd", group := 97, modifiers := [0x66, 0x28, 0x01], avx := true },
    { name := "vmovupd", group := 97, modifiers := [0x66, 0x10, 0x01], avx := true },
    { name := "movhpd", group := 99, modifiers := [0x66, 0x16], cpu := some [16] },
    { name := "movlpd", group := 99, modifiers := [0x66, 0x12], cpu := some [16] },
    { name := "vmovhpd", group := 99, modifiers := [0x66, 0x16, 0xC0], avx := true },
    { name := "vmovlpd", group := 99, modifiers := [0x66, 0x12, 0xC0], avx := true },
    { name := "movmskpd", group := 100, modifiers := [0x66], cpu := some [16] },
    { name := "vmovmskpd", group := 100, modifiers := [0x66, 0xC0], avx := true },
    { name := "movntpd", group := 101, modifiers := [0x66, 0x2B], cpu := some [16] },
    { name := "movntdq", group := 101, modifiers := [0x66, 0xE7], cpu := some [16] },
    { name := "vmovntpd", group := 101, modifiers := [0x66, 0x2B, 0xC0], avx := true },
    { name := "vmovntdq", group := 101, modifiers := [0x66, 0xE7, 0xC0], avx := true },
    { name := "vmovsd", group := 42, modifiers := [0xC0], avx := true },
    { name := "invept", group := 113, modifiers := [0x00] },
    { name := "invvpid", group := 113, modifiers := [0x01] },
    { name := "vmcall", group := 5, modifiers := [0x0F, 0x01, 0xC1], cpu := some [8] },
    { name := "vmlaunch", group := 5, modifiers := [0x0F, 0x01, 0xC2], cpu := some [8] },
    { name := "vmresume", group := 5, modifiers := [0x0F, 0x01, 0xC3], cpu := some [8] },
    { name := "vmxoff", group := 5, modifiers := [0x0F, 0x01, 0xC4], cpu := some [8] },
    { name := "vmread", group := 114 },
    { name := "vmwrite", group := 115 },
    { name := "vmptrld", group := 116, modifiers := [0x06] },
    { name := "vmptrst", group := 116, modifiers := [0x07] },
    { name := "vmclear", group := 117, modifiers := [0x66] },
    { name := "vmxon", group := 117, modifiers := [0xF3] },
    { name := "getsec", group := 4, modifiers := [0x0F, 0x37], cpu := some [46] },
    { name := "cvttpd2pi", group := 111, modifiers := [0x66, 0x2C], cpu := some [16] },
    { name := "cvttsd2si", group := 110, modifiers := [0xF2, 0x2C], cpu := some [16] },
    { name := "cvttpd2dq", group := 83, modifiers := [0x66, 0xE6], cpu := some [16] },
    { name := "cvttps2dq", group := 83, modifiers := [0xF3, 0x5B], cpu := some [16] },
    { name := "pmuludq", group := 78, modifiers := [0xF4], cpu := some [16] },
    { name := "pshufd", group := 91, modifiers := [0x66, 0x70], cpu := some [16] },
    { name := "pshufhw", group := 91, modifiers := [0xF3, 0x70], cpu := some [16] },
    { name := "pshuflw", group := 91, modifiers := [0xF2, 0x70], cpu := some [16] },
    { name := "punpckhqdq", group := 83, modifiers := [0x66, 0x6D], cpu := some [16] },
    { name := "punpcklqdq", group := 83, modifiers := [0x66, 0x6C], cpu := some [16] },
    { name := "vcvttsd2si", group := 110, modifiers := [0xF2, 0x2C, 0xC0], avx := true },
    { name := "vpmuludq", group := 82, modifiers := [0x66, 0xF4, 0xC0], avx := true },
    { name := "vpshufd", group := 92, modifiers := [0x66, 0x70, 0xC0], avx := true },
    { name := "vpshufhw", group := 92, modifiers := [0xF3, 0x70, 0xC0], avx := true },
    { name := "vpshuflw", group := 92, modifiers := [0xF2, 0x70, 0xC0], avx := true },
    { name := "vpunpckhqdq", group := 82, modifiers := [0x66, 0x6D, 0xC0], avx := true },
    { name := "vpunpcklqdq", group := 82, modifiers := [0x66, 0x6C, 0xC0], avx := true },
    { name := "cvtss2sd", group := 88, modifiers := [0xF3, 0x5A], cpu := some [16] },
    { name := "vcvtss2sd", group := 88, modifiers := [0xF3, 0x5A, 0xC0], avx := true },
    { name := "maskmovdqu", group := 118 },
    { name := "vmaskmovdqu", group := 118, modifiers := [0xC0], avx := true },
    { name := "movdqa", group := 97, modifiers := [0x66, 0x6F, 0x10], cpu := some [16] },
    { name := "movdqu", group := 97, modifiers := [0xF3, 0x6F, 0x10], cpu := some [16] },
    { name := "vmovdqa", group := 97, modifiers := [0x66, 0x6F, 0x10], avx := true },
    { name := "vmovdqu", group := 97, modifiers := [0xF3, 0x6F, 0x10], avx := true },
    { name := "movdq2q", group := 119 },
    { name := "movq2dq", group := 120 },
    { name := "pslldq", group := 121, modifiers := [0x07] },
    { name := "psrldq", group := 121, modifiers := [0x03] },
    { name := "vpslldq", group := 121, modifiers := [0x07, 0xC0], avx := true },
    { name := "vpsrldq", group := 121, modifiers := [0x03, 0xC0], avx := true },
    { name := "addsubpd", group := 83, modifiers := [0x66, 0xD0], cpu := some [17] },
    { name := "addsubps", group := 83, modifiers := [0xF2, 0xD0], cpu := some [17] },
    { name := "haddpd", group := 83, modifiers := [0x66, 0x7C], cpu := some [17] },
    { name := "haddps", group := 83, modifiers := [0xF2, 0x7C], cpu := some [17] },
    { name := "hsubpd", group := 83, modifiers := [0x66, 0x7D], cpu := some [17] },
    { name := "hsubps", group := 83, modifiers := [0xF2, 0x7D], cpu := some [17] },
    { name := "vaddsubpd", group := 81, modifiers := [0x66, 0xD0, 0xC0], avx := true },
    { name := "vaddsubps", group := 81, modifiers := [0xF2, 0xD0, 0xC0], avx := true },
    { name := "vhaddpd", group := 81, modifiers := [0x66, 0x7C, 0xC0], avx := true },
    { name := "vhaddps", group := 81, modifiers := [0xF2, 0x7C, 0xC0], avx := true },
    { name := "vhsubpd", group := 81, modifiers := [0x66, 0x7D, 0xC0], avx := true },
    { name := "vhsubps", group := 81, modifiers := [0xF2, 0x7D, 0xC0], avx := true },
    { name := "movshdup", group := 83, modifiers := [0xF3, 0x16], cpu := some [17] },
    { name := "movsldup", group := 83, modifiers := [0xF3, 0x12], cpu := some [17] },
    { name := "fisttp", group := 55, modifiers := [0x01, 0x00, 0x01], cpu := some [17] },
    { name := "fisttpll", group := 55, suffix := some .q, modifiers := [0x07], cpu := some [17] },
    { name := "movddup", group := 108, modifiers := [0xF2, 0x12], cpu := some [17] },
    { name := "monitor", group := 5, modifiers := [0x0F, 0x01, 0xC8], cpu := some [17] },
    { name := "mwait", group := 5, modifiers := [0x0F, 0x01, 0xC9], cpu := some [17] },
    { name := "lddqu", group := 122 },
    { name := "vlddqu", group := 122, modifiers := [0xC0], avx := true },
    { name := "pshufb", group := 123, modifiers := [0x00] },
    { name := "phaddw", group := 123, modifiers := [0x01] },
    { name := "phaddd", group := 123, modifiers := [0x02] },
    { name := "phaddsw", group := 123, modifiers := [0x03] },
    { name := "pmaddubsw", group := 123, modifiers := [0x04] },
    { name := "phsubw", group := 123, modifiers := [0x05] },
    { name := "phsubd", group := 123, modifiers := [0x06] },
    { name := "phsubsw", group := 123, modifiers := [0x07] },
    { name := "psignb", group := 123, modifiers := [0x08] },
    { name := "psignw", group := 123, modifiers := [0x09] },
    { name := "psignd", group := 123, modifiers := [0x0A] },
    { name := "pmulhrsw", group := 123, modifiers := [0x0B] },
    { name := "pabsb", group := 123, modifiers := [0x1C] },
    { name := "pabsw", group := 123, modifiers := [0x1D] },
    { name := "pabsd", group := 123, modifiers := [0x1E] },
    { name := "vpshufb", group := 123, modifiers := [0x00, 0xC0], avx := true },
    { name := "vphaddw", group := 123, modifiers := [0x01, 0xC0], avx := true },
    { name := "vphaddd", group := 123, modifiers := [0x02, 0xC0], avx := true },
    { name := "vphaddsw", group := 123, modifiers := [0x03, 0xC0], avx := true },
    { name := "vpmaddubsw", group := 123, modifiers := [0x04, 0xC0], avx := true },
    { name := "vphsubw", group := 123, modifiers := [0x05, 0xC0], avx := true },
    { name := "vphsubd", group := 123, modifiers := [0x06, 0xC0], avx := true },
    { name := "vphsubsw", group := 123, modifiers := [0x07, 0xC0], avx := true },
    { name := "vpsignb", group := 123, modifiers := [0x08, 0xC0], avx := true },
    { name := "vpsignw", group := 123, modifiers := [0x09, 0xC0], avx := true },
    { name := "vpsignd", group := 123, modifiers := [0x0A, 0xC0], avx := true },
    { name := "vpmulhrsw", group := 123, modifiers := [0x0B, 0xC0], avx := true },
    { name := "palignr", group := 124, modifiers := [0x0F] },
    { name := "vpalignr", group := 127, modifiers := [0x0F, 0xC0], avx := true },
    { name := "packusdw", group := 125, modifiers := [0x2B] },
    { name := "pcmpeqq", group := 125, modifiers := [0x29] },
    { name := "pcmpgtq", group := 125, modifiers := [0x37] },
    { name := "phminposuw", group := 125, modifiers := [0x41] },
    { name := "pmaxsb", group := 125, modifiers := [0x3C] },
    { name := "pmaxsd", group := 125, modifiers := [0x3D] },
    { name := "pmaxud", group := 125, modifiers := [0x3F] },
    { name := "pmaxuw", group := 125, modifiers := [0x3E] },
    { name := "pminsb", group := 125, modifiers := [0x38] },
    { name := "pminsd", group := 125, modifiers := [0x39] },
    { name := "pminud", group := 125, modifiers := [0x3B] },
    { name := "pminuw", group := 125, modifiers := [0x3A] },
    { name := "pmuldq", group := 125, modifiers := [0x28] },
    { name := "pmulld", group := 125, modifiers := [0x40] },
    { name := "ptest", group := 125, modifiers := [0x17] },
    { name := "vpackusdw", group := 123, modifiers := [0x2B, 0xC0], avx := true },
    { name := "vpcmpeqq", group := 123, modifiers := [0x29, 0xC0], avx := true },
    { name := "vpcmpgtq", group := 123, modifiers := [0x37, 0xC0], avx := true },
    { name := "vpmaxsb", group := 123, modifiers := [0x3C, 0xC0], avx := true },
    { name := "vpmaxsd", group := 123, modifiers := [0x3D, 0xC0], avx := true },
    { name := "vpmaxud", group := 123, modifiers := [0x3F, 0xC0], avx := true },
    { name := "vpmaxuw", group := 123, modifiers := [0x3E, 0xC0], avx := true },
    { name := "vpminsb", group := 123, modifiers := [0x38, 0xC0], avx := true },
    { name := "vpminsd", group := 123, modifiers := [0x39, 0xC0], avx := true },
    { name := "vpminud", group := 123, modifiers := [0x3B, 0xC0], avx := true },
    { name := "vpminuw", group := 123, modifiers := [0x3A, 0xC0], avx := true },
    { name := "vpmuldq", group := 123, modifiers := [0x28, 0xC0], avx := true },
    { name := "vpmulld", group := 123, modifiers := [0x40, 0xC0], avx := true },
    { name := "vptest", group := 125, modifiers := [0x17, 0xC0], avx := true },
    { name := "blendpd", group := 128, modifiers := [0x0D] },
    { name := "blendps", group := 128, modifiers := [0x0C] },
    { name := "dppd", group := 128, modifiers := [0x41] },
    { name := "dpps", group := 128, modifiers := [0x40] },
    { name := "mpsadbw", group := 128, modifiers := [0x42] },
    { name := "pblendw", group := 128, modifiers := [0x0E] },
    { name := "roundpd", group := 128, modifiers := [0x09] },
    { name := "roundps", group := 128, modifiers := [0x08] },
    { name := "roundsd", group := 130, modifiers := [0x0B] },
    { name := "roundss", group := 129, modifiers := [0x0A] },
    { name := "vblendpd", group := 126, modifiers := [0x0D, 0xC0], avx := true },
    { name := "vblendps", group := 126, modifiers := [0x0C, 0xC0], avx := true },
    { name := "vdppd", group := 128, modifiers := [0x41, 0xC0], avx := true },
    { name := "vdpps", group := 126, modifiers := [0x40, 0xC0], avx := true },
    { name := "vmpsadbw", group := 127, modifiers := [0x42, 0xC0], avx := true },
    { name := "vpblendw", group := 127, modifiers := [0x0E, 0xC0], avx := true },
    { name := "vroundsd", group := 130, modifiers := [0x0B, 0xC0], avx := true },
    { name := "vroundss", group := 129, modifiers := [0x0A, 0xC0], avx := true },
    { name := "blendvpd", group := 131, modifiers := [0x15] },
    { name := "blendvps", group := 131, modifiers := [0x14] },
    { name := "pblendvb", group := 131, modifiers := [0x10] },
    { name := "vblendvpd", group := 132, modifiers := [0x4B] },
    { name := "vblendvps", group := 132, modifiers := [0x4A] },
    { name := "vpblendvb", group := 133, modifiers := [0x4C] },
    { name := "crc32", group := 134 },
    { name := "extractps", group := 135 },
    { name := "vextractps", group := 135, modifiers := [0xC0], avx := true },
    { name := "insertps", group := 136 },
    { name := "vinsertps", group := 136, modifiers := [0xC0], avx := true },
    { name := "movntdqa", group := 137 },
    { name := "vmovntdqa", group := 137, modifiers := [0xC0], avx := true },
    { name := "pcmpestri", group := 138, modifiers := [0x61] },
    { name := "pcmpestrm", group := 138, modifiers := [0x60] },
    { name := "pcmpistri", group := 138, modifiers := [0x63] },
    { name := "pcmpistrm", group := 138, modifiers := [0x62] },
    { name := "vpcmpestri", group := 138, modifiers := [0x61, 0xC0], avx := true },
    { name := "vpcmpestrm", group := 138, modifiers := [0x60, 0xC0], avx := true },
    { name := "vpcmpistri", group := 138, modifiers := [0x63, 0xC0], avx := true },
    { name := "vpcmpistrm", group := 138, modifiers := [0x62, 0xC0], avx := true },
    { name := "pextrb", group := 139 },
    { name := "vpextrb", group := 139, modifiers := [0xC0], avx := true },
    { name := "pextrd", group := 140 },
    { name := "vpextrd", group := 140, modifiers := [0xC0], avx := true },
    { name := "pextrq", group := 141 },
    { name := "vpextrq", group := 141, modifiers := [0xC0], avx := true },
    { name := "pinsrb", group := 142 },
    { name := "vpinsrb", group := 142, modifiers := [0xC0], avx := true },
    { name := "pinsrd", group := 143 },
    { name := "vpinsrd", group := 143, modifiers := [0xC0], avx := true },
    { name := "pinsrq", group := 144 },
    { name := "vpinsrq", group := 144, modifiers := [0xC0], avx := true },
    { name := "pmovsxbw", group := 147, modifiers := [0x20] },
    { name := "pmovsxwd", group := 147, modifiers := [0x23] },
    { name := "pmovsxdq", group := 147, modifiers := [0x25] },
    { name := "pmovzxbw", group := 147, modifiers := [0x30] },
    { name := "pmovzxwd", group := 147, modifiers := [0x33] },
    { name := "pmovzxdq", group := 147, modifiers := [0x35] },
    { name := "vpmovsxbw", group := 147, modifiers := [0x20, 0xC0], avx := true },
    { name := "vpmovsxwd", group := 147, modifiers := [0x23, 0xC0], avx := true },
    { name := "vpmovsxdq", group := 147, modifiers := [0x25, 0xC0], avx := true },
    { name := "vpmovzxbw", group := 147, modifiers := [0x30, 0xC0], avx := true },
    { name := "vpmovzxwd", group := 147, modifiers := [0x33, 0xC0], avx := true },
    { name := "vpmovzxdq", group := 147, modifiers := [0x35, 0xC0], avx := true },
    { name := "pmovsxbd", group := 146, modifiers := [0x21] },
    { name := "pmovsxwq", group := 146, modifiers := [0x24] },
    { name := "pmovzxbd", group := 146, modifiers := [0x31] },
    { name := "pmovzxwq", group := 146, modifiers := [0x34] },
    { name := "vpmovsxbd", group := 146, modifiers := [0x21, 0xC0], avx := true },
    { name := "vpmovsxwq", group := 146, modifiers := [0x24, 0xC0], avx := true },
    { name := "vpmovzxbd", group := 146, modifiers := [0x31, 0xC0], avx := true },
    { name := "vpmovzxwq", group := 146, modifiers := [0x34, 0xC0], avx := true },
    { name := "pmovsxbq", group := 145, modifiers := [0x22] },
    { name := "pmovzxbq", group := 145, modifiers := [0x32] },
    { name := "vpmovsxbq", group := 145, modifiers := [0x22, 0xC0], avx := true },
    { name := "vpmovzxbq", group := 145, modifiers := [0x32, 0xC0], avx := true },
    { name := "popcnt", group := 148, modifiers := [0xB8], cpu := some [31] },
    { name := "vmovd", group := 149 },
    { name := "vmovq", group := 150 },
    { name := "vmovshdup", group := 151, modifiers := [0xF3, 0x16] },
    { name := "vmovsldup", group := 151, modifiers := [0xF3, 0x12] },
    { name := "vrcpps", group := 151, modifiers := [0x00, 0x53] },
    { name := "vrsqrtps", group := 151, modifiers := [0x00, 0x52] },
    { name := "vsqrtps", group := 151, modifiers := [0x00, 0x51] },
    { name := "vsqrtpd", group := 151, modifiers := [0x66, 0x51] },
    { name := "vcvtdq2ps", group := 151, modifiers := [0x00, 0x5B] },
    { name := "vcvtps2dq", group := 151, modifiers := [0x66, 0x5B] },
    { name := "vcvttps2dq", group := 151, modifiers := [0xF3, 0x5B] },
    { name := "vroundpd", group := 152, modifiers := [0x09] },
    { name := "vroundps", group := 152, modifiers := [0x08] },
    { name := "vmovddup", group := 153, modifiers := [0xF2, 0x12] },
    { name := "vcomisd", group := 154, modifiers := [0x66, 0x2F], avx := true },
    { name := "vucomisd", group := 154, modifiers := [0x66, 0x2E], avx := true },
    { name := "vcomiss", group := 155, modifiers := [0x00, 0x2F], avx := true },
    { name := "vucomiss", group := 155, modifiers := [0x00, 0x2E], avx := true },
    { name := "vcvtdq2pd", group := 156, modifiers := [0xF3, 0xE6] },
    { name := "vcvtps2pd", group := 156, modifiers := [0x00, 0x5A] },
    { name := "vphminposuw", group := 157, modifiers := [0x41], avx := true },
    { name := "vpabsb", group := 158, modifiers := [0x1C], avx := true },
    { name := "vpabsw", group := 158, modifiers := [0x1D], avx := true },
    { name := "vpabsd", group := 158, modifiers := [0x1E], avx := true },
    { name := "vcvtpd2dqx", group := 159, modifiers := [0xF2, 0xE6], gasOnly := true },
    { name := "vcvtpd2dqy", group := 160, modifiers := [0xF2, 0xE6], gasOnly := true },
    { name := "vcvtpd2dq", group := 161, modifiers := [0xF2, 0xE6] },
    { name := "vcvtpd2psx", group := 159, modifiers := [0x66, 0x5A], gasOnly := true },
    { name := "vcvtpd2psy", group := 160, modifiers := [0x66, 0x5A], gasOnly := true },
    { name := "vcvtpd2ps", group := 161, modifiers := [0x66, 0x5A] },
    { name := "vcvttpd2dqx", group := 159, modifiers := [0x66, 0xE6], gasOnly := true },
    { name := "vcvttpd2dqy", group := 160, modifiers := [0x66, 0xE6], gasOnly := true },
    { name := "vcvttpd2dq", group := 161, modifiers := [0x66, 0xE6] },
    { name := "vtestps", group := 125, modifiers := [0x0E, 0xC0], avx := true },
    { name := "vtestpd", group := 125, modifiers := [0x0F, 0xC0], avx := true },
    { name := "vbroadcastss", group := 162 },
    { name := "vbroadcastsd", group := 163 },
    { name := "vbroadcastf128", group := 164, modifiers := [0x1A], cpu := some [34] },
    { name := "vbroadcasti128", group := 164, modifiers := [0x5A], cpu := some [47] },
    { name := "vextractf128", group := 165, modifiers := [0x19], cpu := some [34] },
    { name := "vextracti128", group := 165, modifiers := [0x39], cpu := some [47] },
    { name := "vinsertf128", group := 166, modifiers := [0x18], cpu := some [34] },
    { name := "vinserti128", group := 166, modifiers := [0x38], cpu := some [47] },
    { name := "vzeroall", group := 167, modifiers := [0xC4] },
    { name := "vzeroupper", group := 167, modifiers := [0xC0] },
    { name := "vmaskmovps", group := 168, modifiers := [0x2C], cpu := some [34] },
    { name := "vmaskmovpd", group := 168, modifiers := [0x2D], cpu := some [34] },
    { name := "vpermilpd", group := 169, modifiers := [0x05] },
    { name := "vpermilps", group := 169, modifiers := [0x04] },
    { name := "vperm2f128", group := 170 },
    { name := "vpermd", group := 171, modifiers := [0x36] },
    { name := "vpermps", group := 171, modifiers := [0x16] },
    { name := "vpermq", group := 172, modifiers := [0x00] },
    { name := "vpermpd", group := 172, modifiers := [0x01] },
    { name := "vperm2i128", group := 173 },
    { name := "vpbroadcastb", group := 174 },
    { name := "vpbroadcastw", group := 175 },
    { name := "vpbroadcastd", group := 176 },
    { name := "vpbroadcastq", group := 177 },
    { name := "vpsrlvd", group := 178, modifiers := [0x45] },
    { name := "vpsrlvq", group := 179, modifiers := [0x45] },
    { name := "vpsravd", group := 178, modifiers := [0x46] },
    { name := "vpsllvd", group := 178, modifiers := [0x47] },
    { name := "vpsllvq", group := 179, modifiers := [0x47] },
    { name := "vpmaskmovd", group := 168, modifiers := [0x8C], cpu := some [47] },
    { name := "vpmaskmovq", group := 180, modifiers := [0x8C] },
    { name := "vpblendd", group := 181, modifiers := [0x02] },
    { name := "vgatherdpd", group := 182, modifiers := [0x92] },
    { name := "vpgatherdq", group := 182, modifiers := [0x90] },
    { name := "vgatherqpd", group := 183, modifiers := [0x93] },
    { name := "vpgatherqq", group := 183, modifiers := [0x91] },
    { name := "vgatherdps", group := 184, modifiers := [0x92] },
    { name := "vpgatherdd", group := 184, modifiers := [0x90] },
    { name := "vgatherqps", group := 185, modifiers := [0x93] },
    { name := "vpgatherqd", group := 185, modifiers := [0x91] },
    { name := "xabort", group := 186 },
    { name := "xbegin", group := 187 },
    { name := "xend", group := 188, modifiers := [0xD5] },
    { name := "xtest", group := 188, modifiers := [0xD6] },
    { name := "vfmadd132ps", group := 189, modifiers := [0x98] },
    { name := "vfmsub132ps", group := 189, modifiers := [0x9A] },
    { name := "vfnmsub132ps", group := 189, modifiers := [0x9E] },
    { name := "vfnmadd132ps", group := 189, modifiers := [0x9C] },
    { name := "vfmadd132pd", group := 190, modifiers := [0x98] },
    { name := "vfmsub132pd", group := 190, modifiers := [0x9A] },
    { name := "vfnmsub132pd", group := 190, modifiers := [0x9E] },
    { name := "vfnmadd132pd", group := 190, modifiers := [0x9C] },
    { name := "vfmadd132ss", group := 191, modifiers := [0x99] },
    { name := "vfmsub132ss", group := 191, modifiers := [0x9B] },
    { name := "vfnmsub132ss", group := 191, modifiers := [0x9F] },
    { name := "vfnmadd132ss", group := 191, modifiers := [0x9D] },
    { name := "vfmadd132sd", group := 192, modifiers := [0x99] },
    { name := "vfmsub132sd", group := 192, modifiers := [0x9B] },
    { name := "vfnmsub132sd", group := 192, modifiers := [0x9F] },
    { name := "vfnmadd132sd", group := 192, modifiers := [0x9D] },
    { name := "vfmaddsub132ps", group := 189, modifiers := [0x96] },
    { name := "vfmsubadd132ps", group := 189, modifiers := [0x97] } ]

end Verif.Match
