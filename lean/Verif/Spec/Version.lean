import Verif.Model.Bytes
/-
Where the version number of a record is, in terms of bytes.
-/
namespace Verif

/-- The bytes start with a record header that announces version `v`: either four bytes of byte
count, recognisable by bit 6 of the first, and two bytes of version, or (old records) the two bytes
of version alone, followed by at least two more bytes. -/
inductive HasVersion : List Byte → Int → Prop where
  | counted (c0 c1 c2 c3 v0 v1 : Byte) (body : List Byte) (h : c0.toNat.testBit 6 = true) :
      HasVersion (c0 :: c1 :: c2 :: c3 :: v0 :: v1 :: body)
        (toSigned 2 (v0.toNat * 256 + v1.toNat))
  | bare (v0 v1 b0 b1 : Byte) (body : List Byte) (h : v0.toNat.testBit 6 = false) :
      HasVersion (v0 :: v1 :: b0 :: b1 :: body) (toSigned 2 (v0.toNat * 256 + v1.toNat))

end Verif
