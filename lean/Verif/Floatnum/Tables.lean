/-
The power-of-ten tables of libyasm/floatnum.c, generated by transcription of POT_TableN_Source (93-108) and
POT_TableP_Source (121-136), with the decimal exponents that yasm_floatnum_initialize (159-188) attaches.
-/

namespace Verif.Floatnum

/-- A line of a table: ten mantissa bytes, little-endian; exponent; decimal exponent. -/
structure Source where
  mantissa : List (BitVec 8)
  exponent : Nat
  dec : Int

/-- POT_TableN_Source (floatnum.c:93-108). -/
def potNSource : List Source := [
  ⟨[0xe3, 0x2d, 0xde, 0x9f, 0xce, 0xd2, 0xc8, 0x04, 0xdd, 0xa6], 0x4ad8, -4096⟩,
  ⟨[0x25, 0x49, 0xe4, 0x2d, 0x36, 0x34, 0x4f, 0x53, 0xae, 0xce], 0x656b, -2048⟩,
  ⟨[0xa6, 0x87, 0xbd, 0xc0, 0x57, 0xda, 0xa5, 0x82, 0xa6, 0xa2], 0x72b5, -1024⟩,
  ⟨[0x33, 0x71, 0x1c, 0xd2, 0x23, 0xdb, 0x32, 0xee, 0x49, 0x90], 0x795a, -512⟩,
  ⟨[0x91, 0xfa, 0x39, 0x19, 0x7a, 0x63, 0x25, 0x43, 0x31, 0xc0], 0x7cac, -256⟩,
  ⟨[0x7d, 0xac, 0xa0, 0xe4, 0xbc, 0x64, 0x7c, 0x46, 0xd0, 0xdd], 0x7e55, -128⟩,
  ⟨[0x24, 0x3f, 0xa5, 0xe9, 0x39, 0xa5, 0x27, 0xea, 0x7f, 0xa8], 0x7f2a, -64⟩,
  ⟨[0xde, 0x67, 0xba, 0x94, 0x39, 0x45, 0xad, 0x1e, 0xb1, 0xcf], 0x7f94, -32⟩,
  ⟨[0x2f, 0x4c, 0x5b, 0xe1, 0x4d, 0xc4, 0xbe, 0x94, 0x95, 0xe6], 0x7fc9, -16⟩,
  ⟨[0xc2, 0xfd, 0xfc, 0xce, 0x61, 0x84, 0x11, 0x77, 0xcc, 0xab], 0x7fe4, -8⟩,
  ⟨[0xc3, 0xd3, 0x2b, 0x65, 0x19, 0xe2, 0x58, 0x17, 0xb7, 0xd1], 0x7ff1, -4⟩,
  ⟨[0x71, 0x3d, 0x0a, 0xd7, 0xa3, 0x70, 0x3d, 0x0a, 0xd7, 0xa3], 0x7ff8, -2⟩,
  ⟨[0xcd, 0xcc, 0xcc, 0xcc, 0xcc, 0xcc, 0xcc, 0xcc, 0xcc, 0xcc], 0x7ffb, -1⟩,
  ⟨[0x00, 0x00, 0x00, 0x00, 0x00, 0x00, 0x00, 0x00, 0x00, 0x80], 0x7fff, 0⟩]

/-- POT_TableP_Source (floatnum.c:121-136). -/
def potPSource : List Source := [
  ⟨[0x4c, 0xc9, 0x9a, 0x97, 0x20, 0x8a, 0x02, 0x52, 0x60, 0xc4], 0xb525, 4096⟩,
  ⟨[0x4d, 0xa7, 0xe4, 0x5d, 0x3d, 0xc5, 0x5d, 0x3b, 0x8b, 0x9e], 0x9a92, 2048⟩,
  ⟨[0x0d, 0x65, 0x17, 0x0c, 0x75, 0x81, 0x86, 0x75, 0x76, 0xc9], 0x8d48, 1024⟩,
  ⟨[0x65, 0xcc, 0xc6, 0x91, 0x0e, 0xa6, 0xae, 0xa0, 0x19, 0xe3], 0x86a3, 512⟩,
  ⟨[0xbc, 0xdd, 0x8d, 0xde, 0xf9, 0x9d, 0xfb, 0xeb, 0x7e, 0xaa], 0x8351, 256⟩,
  ⟨[0x6f, 0xc6, 0xdf, 0x8c, 0xe9, 0x80, 0xc9, 0x47, 0xba, 0x93], 0x81a8, 128⟩,
  ⟨[0xbf, 0x3c, 0xd5, 0xa6, 0xcf, 0xff, 0x49, 0x1f, 0x78, 0xc2], 0x80d3, 64⟩,
  ⟨[0x20, 0xf0, 0x9d, 0xb5, 0x70, 0x2b, 0xa8, 0xad, 0xc5, 0x9d], 0x8069, 32⟩,
  ⟨[0x00, 0x00, 0x00, 0x00, 0x00, 0x04, 0xbf, 0xc9, 0x1b, 0x8e], 0x8034, 16⟩,
  ⟨[0x00, 0x00, 0x00, 0x00, 0x00, 0x00, 0x00, 0x20, 0xbc, 0xbe], 0x8019, 8⟩,
  ⟨[0x00, 0x00, 0x00, 0x00, 0x00, 0x00, 0x00, 0x00, 0x40, 0x9c], 0x800c, 4⟩,
  ⟨[0x00, 0x00, 0x00, 0x00, 0x00, 0x00, 0x00, 0x00, 0x00, 0xc8], 0x8005, 2⟩,
  ⟨[0x00, 0x00, 0x00, 0x00, 0x00, 0x00, 0x00, 0x00, 0x00, 0xa0], 0x8002, 1⟩,
  ⟨[0x00, 0x00, 0x00, 0x00, 0x00, 0x00, 0x00, 0x00, 0x00, 0x80], 0x7fff, 0⟩]

end Verif.Floatnum
