import Verif.Model.Records
/-
Ranges of the fields of the fixed records: what fits the Rust types and the chosen layout.
-/
namespace Verif

/-- Representable in the given layout. -/
def InSeek (big : Bool) (v : Int) : Prop := InI (if big then 8 else 4) v

instance decInSeek (big v) : Decidable (InSeek big v) := inferInstanceAs (Decidable (InI _ _))

/-- Ranges and consistency of the fields of a key: the large form is used whenever a position needs
it. -/
def Key.InRange (k : Key) : Prop :=
  0 ≤ k.nBytes ∧ InI 4 k.nBytes ∧ InI 2 k.rvers ∧ (kStartBigFile < k.seekKey → 1000 ≤ k.rvers) ∧
  InI 4 k.objLen ∧ InI 2 k.keyLen ∧ InI 2 k.cycle ∧
  InSeek (1000 < k.rvers) k.seekKey ∧ InSeek (1000 < k.rvers) k.seekPdir ∧
  (k.cls.length < 2 ^ 31 ∧ utf8 k.cls = true) ∧ (k.name.length < 2 ^ 31 ∧ utf8 k.name = true) ∧
  (k.title.length < 2 ^ 31 ∧ utf8 k.title = true)

instance Key.decInRange (k : Key) : Decidable k.InRange :=
  inferInstanceAs (Decidable (_ ∧ _ ∧ _ ∧ (_ → _) ∧ _ ∧ _ ∧ _ ∧ _ ∧ _ ∧ (_ ∧ _) ∧ (_ ∧ _) ∧ (_ ∧ _)))

/-- Ranges of the fields of a file header. -/
def FileHeader.InRange (h : FileHeader) : Prop :=
  0 ≤ h.version ∧ h.version < 1000000 ∧ InI 4 h.begin_ ∧ InI 8 h.end_ ∧ InI 8 h.seekFree ∧
  InI 4 h.nBytesFree ∧ InI 4 h.nFree ∧ InI 4 h.nBytesName ∧ h.units < 256 ∧ InI 4 h.compression ∧
  InI 8 h.seekInfo ∧ InI 4 h.nBytesInfo ∧ h.uuid.length = 16 ∧
  (h.wide = true → 0 < h.version) ∧
  0 ≤ h.end_ ∧ 0 ≤ h.seekFree ∧ 0 ≤ h.seekInfo

instance FileHeader.decInRange (h : FileHeader) : Decidable h.InRange :=
  inferInstanceAs (Decidable (_ ∧ _ ∧ _ ∧ _ ∧ _ ∧ _ ∧ _ ∧ _ ∧ _ ∧ _ ∧ _ ∧ _ ∧ _ ∧ (_ → _) ∧ _ ∧ _ ∧ _))

/-- Ranges of the fields of a directory record. -/
def Dir.InRange (d : Dir) : Prop :=
  InI 2 d.rvers ∧ InI 4 d.nBytesKeys ∧ InI 4 d.nBytesName ∧ InSeek d.isBig d.seekDir ∧
  InSeek d.isBig d.seekParent ∧ InSeek d.isBig d.seekKeys ∧ d.uuid.length = 16

instance Dir.decInRange (d : Dir) : Decidable d.InRange :=
  inferInstanceAs (Decidable (_ ∧ _ ∧ _ ∧ _ ∧ _ ∧ _ ∧ _))

/-- Number of days in the `n` years from `y` on. -/
def daysOfYears : Nat → Nat → Nat
  | _, 0 => 0
  | y, n + 1 => (monthLens y).sum + daysOfYears (y + 1) n

/-- The instant `t` (seconds since 1970) is `hh:mm:ss` on day `d` of month `m` of year `y`. -/
structure IsCivil (t y m d hh mm ss : Nat) : Prop where
  year : 1970 ≤ y
  month : 1 ≤ m ∧ m ≤ 12
  day : 1 ≤ d ∧ d ≤ ((monthLens y)[m - 1]?).getD 0
  time : hh < 24 ∧ mm < 60 ∧ ss < 60
  instant : t = 86400 * (daysOfYears 1970 (y - 1970) + ((monthLens y).take (m - 1)).sum + (d - 1)) +
    3600 * hh + 60 * mm + ss

end Verif
