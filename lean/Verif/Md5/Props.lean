/-
Property theorems about the MD5 digest (C40).
-/
import Verif.Md5.Lemmas

namespace Verif.Md5

open Spec (digest)

/-- Whatever the width of `unsigned long` (at least 32 bits), whatever the context memory held, and however
    the message is cut into updates, the digest is the RFC 1321 digest of the concatenation, and the 64-byte
    buffer is never overrun. -/
theorem md5_correct (W : Nat) (hW : 32 ≤ W) (inb : List Byte) (hi : inb.length = 64) (ds : List (List Byte)) :
    md5 W inb ds = some (digest ds.flatten) := by
  obtain ⟨c, h1, h2⟩ := updates_spec hW ds (init_absorbed hW inb hi)
  unfold md5
  rw [h1]
  dsimp only
  rw [List.nil_append] at h2
  exact final_spec hW h2

/-- The digest depends on the concatenation of the chunks only. -/
theorem md5_chunking (W W' : Nat) (hW : 32 ≤ W) (hW' : 32 ≤ W') (inb inb' : List Byte)
    (hi : inb.length = 64) (hi' : inb'.length = 64) (ds ds' : List (List Byte))
    (h : ds.flatten = ds'.flatten) : md5 W inb ds = md5 W' inb' ds' := by
  rw [md5_correct W hW inb hi, md5_correct W' hW' inb' hi', h]

/-- An update with nothing changes nothing, wherever it comes. -/
theorem md5_empty_update (W : Nat) (hW : 32 ≤ W) (inb : List Byte) (hi : inb.length = 64)
    (a b : List (List Byte)) : md5 W inb (a ++ [] :: b) = md5 W inb (a ++ b) :=
  md5_chunking W W hW hW inb inb hi hi _ _ (by simp)

/-- Test vectors of RFC 1321: "" and "abc"; the specification is the RFC's function. -/
theorem rfc_vectors :
    digest [] = [0xd4, 0x1d, 0x8c, 0xd9, 0x8f, 0x00, 0xb2, 0x04, 0xe9, 0x80, 0x09, 0x98, 0xec, 0xf8, 0x42, 0x7e] ∧
    digest [0x61, 0x62, 0x63] =
      [0x90, 0x01, 0x50, 0x98, 0x3c, 0xd2, 0x4f, 0xb0, 0xd6, 0x96, 0x3f, 0x7d, 0x28, 0xe1, 0x7f, 0x72] := by
  constructor <;> with_unfolding_all decide +kernel

/-- The hypotheses are met: three updates on a 64-bit machine, in memory full of sevens. -/
example : md5 64 (List.replicate 64 7) [[0x61], [], [0x62, 0x63]] =
    some [0x90, 0x01, 0x50, 0x98, 0x3c, 0xd2, 0x4f, 0xb0, 0xd6, 0x96, 0x3f, 0x7d, 0x28, 0xe1, 0x7f, 0x72] := by
  rw [md5_correct 64 (by omega) _ (by simp)]
  exact congrArg some rfc_vectors.2

end Verif.Md5
