/-
Bytes, big-endian integers, strings and outcomes: the vocabulary of the whole model.
-/
namespace Verif

/-- A byte (`u8`). -/
abbrev Byte := UInt8

/-- The bytes of a Rust `String`/`&str`. -/
abbrev Str := List Byte

/-- `b! "abc"` is the list of the bytes of an ASCII literal. -/
macro "b!" s:str : term => do
  let cs : Array (Lean.TSyntax `term) :=
    (s.getString.toUTF8.toList.map fun b => Lean.Syntax.mkNumLit (toString b.toNat)).toArray
  `(([$cs,*] : List UInt8))

/-- Errors that the library *returns* (`Err(..)`), one constructor per variant used by the
modelled code: rbytes/error.rs, riofs/error.rs, rtypes errors. -/
inductive Err where
  | versionTooHigh
  | versionTooLow
  | wrongClass
  | misc
  | classNotRegistered
  | io
  | nameContainsSlash
  | keyClassMismatch
  | keyNotInFile
  | cantDecodeNameCycle
  | directoryNegativeSeekKeys
  | incorrectHeaderLength
  | cantReadDirectoryInfo
  | invalidPointerToStreamerInfo
  | openedReadOnly
  | openedWriteOnly
  | typeMismatch
  | branchNotFound
  deriving DecidableEq, Repr

/-- How a call can fail: it returns an error, or it aborts (`panic!`, failed slice, `assert!`,
`unwrap`, `todo!`, `unimplemented!`). -/
inductive Fault where
  | err (e : Err)
  | panic
  deriving DecidableEq, Repr

/-- Outcome of a fallible Rust call. -/
abbrev Res (α : Type) := Except Fault α

/-- `to_be_bytes` of an integer stored in `k` bytes; the value is wrapped modulo `256^k`, as an
`as uN` cast does. -/
def beBytes : Nat → Nat → List Byte
  | 0, _ => []
  | k + 1, v => UInt8.ofNat (v / 256 ^ k) :: beBytes k v

/-- `from_be_bytes` of an unsigned integer. -/
def beNat (bs : List Byte) : Nat := bs.foldl (fun a b => a * 256 + b.toNat) 0

/-- Two's complement of a signed integer on `k` bytes (`as uN`). -/
def wrapI (k : Nat) (x : Int) : Nat := (x % (256 ^ k : Nat)).toNat

/-- Sign reinterpretation of an unsigned integer of `k` bytes (`as iN`). -/
def toSigned (k : Nat) (n : Nat) : Int :=
  if n < 256 ^ k / 2 then (n : Int) else (n : Int) - (256 ^ k : Nat)

/-- `x` is representable as a signed integer on `k` bytes. -/
def InI (k : Nat) (x : Int) : Prop := -((256 ^ k : Nat) : Int) ≤ 2 * x ∧ 2 * x < ((256 ^ k : Nat) : Int)

instance decInI (k x) : Decidable (InI k x) := inferInstanceAs (Decidable (_ ∧ _))

/-- `n` is representable as an unsigned integer on `k` bytes. -/
def InU (k : Nat) (n : Nat) : Prop := n < 256 ^ k

instance decInU (k n) : Decidable (InU k n) := inferInstanceAs (Decidable (_ < _))

/-! ### UTF-8 validity (`core::str::from_utf8`, RFC 3629) -/

/-- Continuation byte `10xxxxxx`. -/
def isCont (b : Byte) : Bool := 0x80 ≤ b.toNat && b.toNat ≤ 0xBF

/-- `from_utf8(buf).is_ok()`; the ranges are those of RFC 3629 (no overlong forms, no surrogates,
nothing above U+10FFFF). -/
def utf8 : List Byte → Bool
  | [] => true
  | b0 :: rest =>
    if b0.toNat < 0x80 then utf8 rest
    else if 0xC2 ≤ b0.toNat && b0.toNat ≤ 0xDF then
      match rest with
      | b1 :: rest => isCont b1 && utf8 rest
      | _ => false
    else if 0xE0 ≤ b0.toNat && b0.toNat ≤ 0xEF then
      match rest with
      | b1 :: b2 :: rest =>
        (if b0.toNat = 0xE0 then 0xA0 ≤ b1.toNat && b1.toNat ≤ 0xBF
         else if b0.toNat = 0xED then 0x80 ≤ b1.toNat && b1.toNat ≤ 0x9F
         else isCont b1) && isCont b2 && utf8 rest
      | _ => false
    else if 0xF0 ≤ b0.toNat && b0.toNat ≤ 0xF4 then
      match rest with
      | b1 :: b2 :: b3 :: rest =>
        (if b0.toNat = 0xF0 then 0x90 ≤ b1.toNat && b1.toNat ≤ 0xBF
         else if b0.toNat = 0xF4 then 0x80 ≤ b1.toNat && b1.toNat ≤ 0x8F
         else isCont b1) && isCont b2 && isCont b3 && utf8 rest
      | _ => false
    else false

/-! ### Constants of rbytes/consts.rs lines 1-24 -/

/-- rbytes/consts.rs: `kNullTag`. -/
def kNullTag : Nat := 0
/-- rbytes/consts.rs: `kNewClassTag`. -/
def kNewClassTag : Nat := 0xFFFFFFFF
/-- rbytes/consts.rs: `kClassMask`. -/
def kClassMask : Nat := 0x80000000
/-- rbytes/consts.rs: `kMapOffset`. -/
def kMapOffset : Nat := 2
/-- rbytes/consts.rs: `kByteCountMask`. -/
def kByteCountMask : Nat := 0x40000000

end Verif
