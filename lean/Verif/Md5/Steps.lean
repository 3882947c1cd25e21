/-
The 64 steps of yasm_md5_transform, generated from libyasm/md5.c:202-268 by transcription: function, the
registers w x y z (a=0, b=1, c=2, d=3), index of the data word, constant, shift.
-/

namespace Verif.Md5

/-- One `MD5STEP(f, w, x, y, z, in[k]+t, s)`. -/
structure StepArgs where
  f : Nat
  w : Nat
  x : Nat
  y : Nat
  z : Nat
  k : Nat
  t : Nat
  s : Nat
deriving DecidableEq, Repr

/-- md5.c:202-268. -/
def steps : List StepArgs := [
  ⟨1, 0, 1, 2, 3, 0, 0xd76aa478, 7⟩,
  ⟨1, 3, 0, 1, 2, 1, 0xe8c7b756, 12⟩,
  ⟨1, 2, 3, 0, 1, 2, 0x242070db, 17⟩,
  ⟨1, 1, 2, 3, 0, 3, 0xc1bdceee, 22⟩,
  ⟨1, 0, 1, 2, 3, 4, 0xf57c0faf, 7⟩,
  ⟨1, 3, 0, 1, 2, 5, 0x4787c62a, 12⟩,
  ⟨1, 2, 3, 0, 1, 6, 0xa8304613, 17⟩,
  ⟨1, 1, 2, 3, 0, 7, 0xfd469501, 22⟩,
  ⟨1, 0, 1, 2, 3, 8, 0x698098d8, 7⟩,
  ⟨1, 3, 0, 1, 2, 9, 0x8b44f7af, 12⟩,
  ⟨1, 2, 3, 0, 1, 10, 0xffff5bb1, 17⟩,
  ⟨1, 1, 2, 3, 0, 11, 0x895cd7be, 22⟩,
  ⟨1, 0, 1, 2, 3, 12, 0x6b901122, 7⟩,
  ⟨1, 3, 0, 1, 2, 13, 0xfd987193, 12⟩,
  ⟨1, 2, 3, 0, 1, 14, 0xa679438e, 17⟩,
  ⟨1, 1, 2, 3, 0, 15, 0x49b40821, 22⟩,
  ⟨2, 0, 1, 2, 3, 1, 0xf61e2562, 5⟩,
  ⟨2, 3, 0, 1, 2, 6, 0xc040b340, 9⟩,
  ⟨2, 2, 3, 0, 1, 11, 0x265e5a51, 14⟩,
  ⟨2, 1, 2, 3, 0, 0, 0xe9b6c7aa, 20⟩,
  ⟨2, 0, 1, 2, 3, 5, 0xd62f105d, 5⟩,
  ⟨2, 3, 0, 1, 2, 10, 0x02441453, 9⟩,
  ⟨2, 2, 3, 0, 1, 15, 0xd8a1e681, 14⟩,
  ⟨2, 1, 2, 3, 0, 4, 0xe7d3fbc8, 20⟩,
  ⟨2, 0, 1, 2, 3, 9, 0x21e1cde6, 5⟩,
  ⟨2, 3, 0, 1, 2, 14, 0xc33707d6, 9⟩,
  ⟨2, 2, 3, 0, 1, 3, 0xf4d50d87, 14⟩,
  ⟨2, 1, 2, 3, 0, 8, 0x455a14ed, 20⟩,
  ⟨2, 0, 1, 2, 3, 13, 0xa9e3e905, 5⟩,
  ⟨2, 3, 0, 1, 2, 2, 0xfcefa3f8, 9⟩,
  ⟨2, 2, 3, 0, 1, 7, 0x676f02d9, 14⟩,
  ⟨2, 1, 2, 3, 0, 12, 0x8d2a4c8a, 20⟩,
  ⟨3, 0, 1, 2, 3, 5, 0xfffa3942, 4⟩,
  ⟨3, 3, 0, 1, 2, 8, 0x8771f681, 11⟩,
  ⟨3, 2, 3, 0, 1, 11, 0x6d9d6122, 16⟩,
  ⟨3, 1, 2, 3, 0, 14, 0xfde5380c, 23⟩,
  ⟨3, 0, 1, 2, 3, 1, 0xa4beea44, 4⟩,
  ⟨3, 3, 0, 1, 2, 4, 0x4bdecfa9, 11⟩,
  ⟨3, 2, 3, 0, 1, 7, 0xf6bb4b60, 16⟩,
  ⟨3, 1, 2, 3, 0, 10, 0xbebfbc70, 23⟩,
  ⟨3, 0, 1, 2, 3, 13, 0x289b7ec6, 4⟩,
  ⟨3, 3, 0, 1, 2, 0, 0xeaa127fa, 11⟩,
  ⟨3, 2, 3, 0, 1, 3, 0xd4ef3085, 16⟩,
  ⟨3, 1, 2, 3, 0, 6, 0x04881d05, 23⟩,
  ⟨3, 0, 1, 2, 3, 9, 0xd9d4d039, 4⟩,
  ⟨3, 3, 0, 1, 2, 12, 0xe6db99e5, 11⟩,
  ⟨3, 2, 3, 0, 1, 15, 0x1fa27cf8, 16⟩,
  ⟨3, 1, 2, 3, 0, 2, 0xc4ac5665, 23⟩,
  ⟨4, 0, 1, 2, 3, 0, 0xf4292244, 6⟩,
  ⟨4, 3, 0, 1, 2, 7, 0x432aff97, 10⟩,
  ⟨4, 2, 3, 0, 1, 14, 0xab9423a7, 15⟩,
  ⟨4, 1, 2, 3, 0, 5, 0xfc93a039, 21⟩,
  ⟨4, 0, 1, 2, 3, 12, 0x655b59c3, 6⟩,
  ⟨4, 3, 0, 1, 2, 3, 0x8f0ccc92, 10⟩,
  ⟨4, 2, 3, 0, 1, 10, 0xffeff47d, 15⟩,
  ⟨4, 1, 2, 3, 0, 1, 0x85845dd1, 21⟩,
  ⟨4, 0, 1, 2, 3, 8, 0x6fa87e4f, 6⟩,
  ⟨4, 3, 0, 1, 2, 15, 0xfe2ce6e0, 10⟩,
  ⟨4, 2, 3, 0, 1, 6, 0xa3014314, 15⟩,
  ⟨4, 1, 2, 3, 0, 13, 0x4e0811a1, 21⟩,
  ⟨4, 0, 1, 2, 3, 4, 0xf7537e82, 6⟩,
  ⟨4, 3, 0, 1, 2, 11, 0xbd3af235, 10⟩,
  ⟨4, 2, 3, 0, 1, 2, 0x2ad7d2bb, 15⟩,
  ⟨4, 1, 2, 3, 0, 9, 0xeb86d391, 21⟩]

end Verif.Md5
