import Verif.Lemmas.Records
/-
C08 (keys), C09 (dates), C10 (free segments), C11 (file header), C12 (directory record).
-/
namespace Verif

/-! ### C08 -/

/-- C08: every field of a key except the date is read back as written, and so is the whole key once
the date is put aside; the record may be anywhere in a buffer.  (`left` and `buffer` are not part of
the record.)  `hd` says the date is one the writer accepts (1995 or later). -/
theorem C08_key_roundtrip (k : Key) (hk : k.InRange) (v : Nat) (hd : datetimeToU32 k.datetime = .ok v) :
    ∃ date, RoundTrip k.marshal Key.unmarshal
      { k with datetime := date, left := 0, buffer := [] } :=
  ⟨v, roundTrip_of (Key.writes hk hd) (Key.reads hk (datetimeToU32_lt hd))⟩

example : ∃ k : Key, k.InRange ∧ k.name = b! "mytree" ∧ datetimeToU32 k.datetime = .ok 1843285647 :=
  ⟨{ nBytes := 120, objLen := 60, keyLen := 60, cycle := 3, seekKey := 1234, seekPdir := 100,
     cls := b! "TTree", name := b! "mytree", title := [] }, by decide +kernel, rfl, rfl⟩

example : ∃ k : Key, k.InRange ∧ 1000 < k.rvers ∧ kStartBigFile < k.seekKey :=
  ⟨{ rvers := 1004, nBytes := 120, objLen := 60, keyLen := 60, cycle := 3, seekKey := 5000000000,
     seekPdir := 100, cls := b! "TTree", name := b! "mytree", title := [] }, by decide +kernel,
     by decide, by decide⟩

/-! ### C09 -/

/-- C09 fails: the library gives every key the date `dateNow`, stores it in ROOT's packed form, and
reads the packed number as a number of seconds; whatever the key, the date that comes back is another
one. -/
theorem C09_date_not_preserved (k : Key) (hk : k.InRange) (hd : k.datetime = dateNow) :
    ∃ k', RoundTrip k.marshal Key.unmarshal k' ∧ k'.datetime ≠ k.datetime := by
  have hv : datetimeToU32 k.datetime = .ok 1843285647 := by rw [hd]; exact datetimeToU32_now
  refine ⟨k.afterRead 1843285647, roundTrip_of (Key.writes hk hv) (Key.reads hk (by decide)), ?_⟩
  rw [hd]
  show (1843285647 : Nat) ≠ dateNow
  decide

/-- C09 fails in the same way for both dates of the directory record. -/
theorem C09_dir_date_not_preserved (d : Dir) (hr : d.InRange) (hc : d.ctime = dateNow)
    (hm : d.mtime = dateNow) :
    ∃ d', RoundTrip d.marshal Dir.unmarshal d' ∧ d'.ctime ≠ d.ctime ∧ d'.mtime ≠ d.mtime := by
  have hv1 : datetimeToU32 d.ctime = .ok 1843285647 := by rw [hc]; exact datetimeToU32_now
  have hv2 : datetimeToU32 d.mtime = .ok 1843285647 := by rw [hm]; exact datetimeToU32_now
  refine ⟨d.afterRead 1843285647 1843285647,
    roundTrip_of (Dir.writes hv1 hv2) (Dir.reads hr (by decide) (by decide)), ?_, ?_⟩
  · rw [hc]; show (1843285647 : Nat) ≠ dateNow; decide
  · rw [hm]; show (1843285647 : Nat) ≠ dateNow; decide

/-- C09, the part that holds: what is stored is the calendar date of the instant, packed as ROOT
packs dates (6 bits of years since 1995, 4 of month, 5 of day, 5 of hour, 6 of minute, 6 of second),
for every instant from 1995 to 2058; nothing about the reader. -/
theorem C09_packed_date_partial (t v : Nat) (h : datetimeToU32 t = .ok v) :
    ∃ y m d hh mm ss, IsCivil t y m d hh mm ss ∧ 1995 ≤ y ∧
      (y < 2059 → v = (y - 1995) * 2 ^ 26 + m * 2 ^ 22 + d * 2 ^ 17 + hh * 2 ^ 12 + mm * 2 ^ 6 + ss) := by
  obtain ⟨n, d', h1, h2, h3⟩ := civilFrom_spec (t / 86400 / 365) 1970 (t / 86400) (Nat.le_refl _)
  obtain ⟨i, g1, g2, g3, g4, g5⟩ := splitMonth_spec _ 1 d' h2
  have hi : i < 12 := g1
  have h31 := monthLens_getD_le (1970 + n) i
  unfold datetimeToU32 civil at h
  rw [h1] at h
  generalize splitMonth (monthLens (1970 + n)) 1 d' = md at *
  obtain ⟨m, d⟩ := md
  simp only at h g2 g3 g4 g5
  have hs : t % 86400 < 86400 := Nat.mod_lt _ (by decide)
  split at h
  · simp at h
  rename_i hy
  injection h with h
  refine ⟨1970 + n, m, d, t % 86400 / 3600, t % 86400 / 60 % 60, t % 86400 % 60, ?_, by omega, ?_⟩
  · refine ⟨by omega, by omega, ⟨g3, ?_⟩, by omega, ?_⟩
    · rw [g2]; simpa using g4
    · rw [g2, show 1970 + n - 1970 = n by omega, show 1 + i - 1 = i by omega]
      omega
  · intro hy2
    subst h
    have hy3 : ((1970 + n - 1995) <<< 26) % 2 ^ 32 = (1970 + n - 1995) <<< 26 := by
      rw [Nat.shiftLeft_eq]
      exact Nat.mod_eq_of_lt (by omega)
    rw [hy3]
    simp only [Nat.or_assoc]
    simp only [Nat.shiftLeft_eq]
    rw [mul_or (k := 6) (by omega), mul_or (k := 12) (by omega), mul_or (k := 17) (by omega),
      mul_or (k := 22) (by omega), mul_or (k := 26) (by omega)]
    omega

example : datetimeToU32 dateNow = .ok 1843285647 ∧
    (1843285647 : Nat) = (2022 - 1995) * 2 ^ 26 + 7 * 2 ^ 22 + 15 * 2 ^ 17 + 4 * 2 ^ 12 + 58 * 2 ^ 6 + 15 :=
  ⟨datetimeToU32_now, by decide⟩

/-! ### C10 -/

/-- C10: a free segment is read back with the same bounds, and takes exactly the room that is
reserved for it; for all 64-bit bounds, with the 4-byte form below 2 GB and the 8-byte form above. -/
theorem C10_free_segment (first last : Int) (h0 : 0 ≤ first) (hle : first ≤ last)
    (hl : last < 2 ^ 63) :
    ∃ bs, RoundTripAs (FreeSegments.marshal ⟨first, last⟩) FreeSegments.unmarshal ⟨first, last⟩ bs ∧
      (bs.length : Int) = FreeSegments.sizeOf ⟨first, last⟩ := by
  have hs : InSeek (kStartBigFile < last) first ∧ InSeek (kStartBigFile < last) last := by
    by_cases hb : kStartBigFile < last
    · simp only [InSeek, hb]
      constructor <;> constructor <;> simp <;> omega
    · simp only [InSeek, hb]
      exact ⟨inI4_of_small h0 (by omega), inI4_of_small (by omega) (by omega)⟩
  exact ⟨_, roundTripAs_of (FreeSegments.writes ⟨first, last⟩) (FreeSegments.reads hs.1 hs.2),
    FreeSegments.enc_length _⟩

example : (0 : Int) ≤ 400 ∧ (400 : Int) ≤ 2000000000 ∧ (2000000000 : Int) < 2 ^ 63 := by decide
example : (0 : Int) ≤ 2000000001 ∧ (2000000001 : Int) ≤ 5000000000 ∧ (5000000000 : Int) < 2 ^ 63 := by
  decide

/-- C10 needs non-negative bounds: the 4-byte form silently cuts a bound below -2^31. -/
theorem C10_negative_bound_lost :
    ∃ w', FreeSegments.marshal ⟨-5000000000, 0⟩ (WBuffer.new 0) = .ok (10, w') ∧
      FreeSegments.unmarshal (RBuffer.new w'.p 0) = .ok (⟨-705032704, 0⟩, { p := w'.p, c := 10 }) :=
  ⟨_, rfl, rfl⟩

/-! ### C11 -/

/-- C11: the header that is written (positions on 4 bytes for small files, on 8 bytes as soon as the
end, the free list or the streamer list lies beyond 2 GB) is read back field by field, fits in the 76
bytes that opening reads, and ends before byte 100 where the first record starts. -/
theorem C11_file_header (h : FileHeader) (hr : h.InRange) :
    ∃ bs, RoundTripAs h.adjusted.marshal FileHeader.unmarshal h.adjusted bs ∧
      bs.length = (if h.wide then 75 else 63) ∧ bs.length ≤ 76 ∧ (bs.length : Int) < kBegin ∧
      (h.adjusted = h ∨ h.wide = true ∧ h.adjusted = { h with units := 8 }) := by
  have ha : h.adjusted.InRange ∧ h.adjusted.wide = h.wide := by
    unfold FileHeader.adjusted
    split
    · refine ⟨?_, rfl⟩
      obtain ⟨a1, a2, a3, a4, a5, a6, a7, a8, a9, a10⟩ := hr
      exact ⟨a1, a2, a3, a4, a5, a6, a7, a8, (by decide : 8 < 256), a10⟩
    · exact ⟨hr, rfl⟩
  have hl := FileHeader.enc_length ha.1
  rw [ha.2] at hl
  refine ⟨_, roundTripAs_of (FileHeader.writes ha.1) (FileHeader.reads ha.1), hl, ?_, ?_, ?_⟩
  · rw [hl]; split <;> decide
  · rw [hl]; split <;> decide
  · unfold FileHeader.adjusted
    by_cases hw : h.wide = true
    · right; simp [hw]
    · left; simp [hw]

example : ∃ h : FileHeader, h.InRange ∧ h.wide = false ∧ h.nBytesName = 77 :=
  ⟨{ version := 63002, begin_ := 100, end_ := 5000, seekFree := 4900, nBytesFree := 60, nFree := 1,
     nBytesName := 77, units := 4, compression := 1, seekInfo := 3000, nBytesInfo := 1900 },
   by decide +kernel, by decide, rfl⟩
example : ∃ h : FileHeader, h.InRange ∧ h.wide = true ∧ h.nBytesName = 77 :=
  ⟨{ version := 63002, begin_ := 100, end_ := 5000000000, seekFree := 4900, nBytesFree := 60,
     nFree := 1, nBytesName := 77, units := 4, compression := 1, seekInfo := 3000,
     nBytesInfo := 1900 },
   by decide +kernel, by decide, rfl⟩

/-! ### C12 -/

/-- C12: the counts, positions and version of the directory record are read back, and the record
never exceeds the 60 bytes that are reserved for it when the library (version 63002) creates a
file. -/
theorem C12_dir_record (d : Dir) (hr : d.InRange) (c m : Nat) (hc : datetimeToU32 d.ctime = .ok c)
    (hm : datetimeToU32 d.mtime = .ok m) :
    ∃ bs d', RoundTripAs d.marshal Dir.unmarshal d' bs ∧
      (bs.length : Int) ≤ dirRecordSize rversROOT ∧
      d'.nBytesKeys = d.nBytesKeys ∧ d'.nBytesName = d.nBytesName ∧ d'.seekDir = d.seekDir ∧
      d'.seekParent = d.seekParent ∧ d'.seekKeys = d.seekKeys ∧ d'.rvers = d.rvers ∧
      d'.uuid = d.uuid := by
  refine ⟨_, _, roundTripAs_of (Dir.writes hc hm)
    (Dir.reads hr (datetimeToU32_lt hc) (datetimeToU32_lt hm)), ?_, rfl, rfl, rfl, rfl, rfl, rfl, rfl⟩
  rw [Dir.enc_length hr.2.2.2.2.2.2]
  split <;> decide

example : ∃ d : Dir, d.InRange ∧ datetimeToU32 d.ctime = .ok 1843285647 ∧ d.seekKeys = 1234 :=
  ⟨{ nBytesKeys := 200, nBytesName := 70, seekDir := 100, seekKeys := 1234 }, by decide +kernel, rfl,
   rfl⟩

end Verif
