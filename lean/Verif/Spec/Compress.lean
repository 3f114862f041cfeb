import Verif.Model.Open
/-
Compressed payloads as ROOT writes them: blocks of at most 2^24-1 bytes, each behind a header of nine
bytes giving the algorithm, a method byte and the two sizes (three bytes each, least significant
first).
-/
namespace Verif

/-- Three bytes, least significant first. -/
def le3 (n : Nat) : List Byte :=
  [UInt8.ofNat n, UInt8.ofNat (n / 256), UInt8.ofNat (n / 65536)]

inductive BlockKind
  | zlib | lzma | lz4
  deriving DecidableEq

/-- The two letters of the algorithm. -/
def BlockKind.tag : BlockKind → List Byte
  | .zlib => b! "ZL"
  | .lzma => b! "XZ"
  | .lz4 => b! "L4"

/-- A block: its compressed data (for LZ4 behind an eight byte checksum) and its plain data. -/
structure Block where
  kind : BlockKind
  method : Byte
  checksum : List Byte := []
  packed : List Byte
  plain : List Byte

/-- The bytes of the block in the file. -/
def Block.bytes (b : Block) : List Byte :=
  b.kind.tag ++ [b.method] ++ le3 (b.checksum.length + b.packed.length) ++ le3 b.plain.length ++
    b.checksum ++ b.packed

/-- The block is well formed and the decoders invert it: the stream decoders stop at the end of their
stream whatever follows, the LZ4 decoder is given exactly the packed bytes. -/
structure Block.Decodes (dec : Decoders) (b : Block) : Prop where
  small : b.plain.length < 2 ^ 24
  nonempty : b.plain ≠ []
  zlib : b.kind = .zlib → b.checksum = [] ∧ ∀ rest, dec.zlib (b.packed ++ rest) = some b.plain
  lzma : b.kind = .lzma → b.checksum = [] ∧ ∀ rest, dec.lzma (b.packed ++ rest) = some b.plain
  lz4 : b.kind = .lz4 → b.checksum.length = 8 ∧ dec.lz4 b.packed = some b.plain

end Verif
