import Verif.Spec.Ranges
import Verif.Lemmas.Objects
namespace Verif

def encSeek (big : Bool) (v : Int) : List Byte := if big then encI 8 v else encI 4 v

theorem encSeek_length (big v) : (encSeek big v).length = if big then 8 else 4 := by
  unfold encSeek; split <;> simp

theorem Writes.seek (big : Bool) (v : Int) : Writes (Wr.seek big v) (encSeek big v) () := by
  unfold Wr.seek encSeek
  split
  · exact Writes.bytes _
  · exact Writes.bytes _

theorem Reads.seek {big : Bool} {v : Int} (h : InSeek big v) : Reads (Rd.seek big) (encSeek big v) v := by
  unfold Rd.seek encSeek
  cases big
  · exact Reads.sint (by decide) h
  · exact Reads.sint (by decide) h

theorem Writes.datetime {t v : Nat} (h : datetimeToU32 t = .ok v) :
    Writes (Wr.datetime t) (beBytes 4 v) () := by
  intro w hw
  unfold Wr.datetime
  rw [h]
  exact Writes.bytes _ w hw

theorem or_lt {a b n : Nat} (ha : a < 2 ^ n) (hb : b < 2 ^ n) : a ||| b < 2 ^ n :=
  Nat.or_lt_two_pow ha hb

theorem monthLens_sum (y : Nat) : (monthLens y).sum = if isLeap y then 366 else 365 := by
  unfold monthLens; split <;> simp

theorem splitMonth_spec (ls : List Nat) (m d : Nat) (h : d < ls.sum) :
    ∃ i, i < ls.length ∧ (splitMonth ls m d).1 = m + i ∧ 1 ≤ (splitMonth ls m d).2 ∧
      (splitMonth ls m d).2 ≤ ls[i]?.getD 0 ∧ (ls.take i).sum + (splitMonth ls m d).2 = d + 1 := by
  induction ls generalizing m d with
  | nil => simp at h
  | cons l ls ih =>
    unfold splitMonth
    by_cases hl : d < l
    · rw [if_pos hl]
      exact ⟨0, by simp, by simp, by simp, by simp; omega, by simp⟩
    · rw [if_neg hl]
      simp only [List.sum_cons] at h
      obtain ⟨i, h1, h2, h3, h4, h5⟩ := ih (m + 1) (d - l) (by omega)
      exact ⟨i + 1, by simpa using h1, by omega, h3, by simpa using h4, by simp; omega⟩

theorem civilFrom_spec (fuel y d : Nat) (hf : d / 365 ≤ fuel) :
    ∃ n d', civilFrom fuel y d = (y + n, splitMonth (monthLens (y + n)) 1 d') ∧
      d' < (monthLens (y + n)).sum ∧ daysOfYears y n + d' = d := by
  induction fuel generalizing y d with
  | zero =>
    refine ⟨0, d, rfl, ?_, by simp [daysOfYears]⟩
    rw [monthLens_sum]
    split <;> omega
  | succ fuel ih =>
    unfold civilFrom
    by_cases h : d < (monthLens y).sum
    · rw [if_pos h]
      exact ⟨0, d, rfl, h, by simp [daysOfYears]⟩
    · rw [if_neg h]
      have hs := monthLens_sum y
      obtain ⟨n, d', h1, h2, h3⟩ := ih (y + 1) (d - (monthLens y).sum) (by
        split at hs <;> omega)
      refine ⟨n + 1, d', ?_, ?_, ?_⟩
      · rw [h1]; simp only [Nat.add_assoc, Nat.add_comm 1 n]
      · rwa [show y + (n + 1) = y + 1 + n by omega]
      · simp only [daysOfYears]; omega

theorem monthLens_getD_le (y i : Nat) : (monthLens y)[i]?.getD 0 ≤ 31 := by
  by_cases h : i < 12
  · have : ∀ b : Bool, ∀ i : Fin 12,
      ([31, if b then 29 else 28, 31, 30, 31, 30, 31, 31, 30, 31, 30, 31] : List Nat)[i.1]?.getD 0 ≤ 31 := by
      decide
    exact this (isLeap y) ⟨i, h⟩
  · rw [List.getElem?_eq_none (by simp [monthLens]; omega)]; simp

theorem civil_bounds (days : Nat) : 1 ≤ (civil days).2.1 ∧ (civil days).2.1 ≤ 12 ∧
    1 ≤ (civil days).2.2 ∧ (civil days).2.2 ≤ 31 := by
  obtain ⟨n, d', h1, h2, _⟩ := civilFrom_spec (days / 365) 1970 days (Nat.le_refl _)
  obtain ⟨i, g1, g2, g3, g4, _⟩ := splitMonth_spec _ 1 d' h2
  have hi : i < 12 := g1
  have := monthLens_getD_le (1970 + n) i
  unfold civil
  rw [h1]
  simp only
  omega

theorem datetimeToU32_lt {t v : Nat} (h : datetimeToU32 t = .ok v) : v < 2 ^ 32 := by
  have hb := civil_bounds (t / 86400)
  unfold datetimeToU32 at h
  generalize civil (t / 86400) = c at *
  obtain ⟨y, m, d⟩ := c
  simp only at h hb
  split at h
  · simp at h
  · injection h with h
    subst h
    have hs : t % 86400 < 86400 := Nat.mod_lt _ (by decide)
    simp only [Nat.shiftLeft_eq]
    refine or_lt (or_lt (or_lt (or_lt (or_lt ?_ ?_) ?_) ?_) ?_) ?_ <;> omega

theorem datetimeToU32_now : datetimeToU32 dateNow = .ok 1843285647 := by rfl

theorem mul_or {a k b : Nat} (h : b < 2 ^ k) : (a * 2 ^ k ||| b) = a * 2 ^ k + b := by
  rw [Nat.mul_comm, Nat.two_pow_add_eq_or_of_lt h]

/-! ### Keys -/

/-- The bytes of a key whose packed date is `v`. -/
def Key.enc (k : Key) (v : Nat) : List Byte :=
  encI 4 k.nBytes ++ (encI 2 k.rvers ++ (encI 4 k.objLen ++ (beBytes 4 v ++ (encI 2 k.keyLen ++
    (encI 2 k.cycle ++ (encSeek (1000 < k.rvers) k.seekKey ++
    (encSeek (1000 < k.rvers) k.seekPdir ++ (encStr k.cls ++ (encStr k.name ++
    encStr k.title)))))))))

theorem Key.writes_of {k : Key} {v : Nat} (h1 : 0 ≤ k.nBytes)
    (h4 : kStartBigFile < k.seekKey → 1000 ≤ k.rvers) (h10 : k.cls.length < 2 ^ 31)
    (h11 : k.name.length < 2 ^ 31) (h12 : k.title.length < 2 ^ 31)
    (hv : datetimeToU32 k.datetime = .ok v) :
    Writes k.marshal (k.enc v) (k.enc v).length := by
  apply Writes.counted
  refine Writes.bind (Writes.bytes _) ?_
  rw [if_neg (by omega), if_neg (by omega)]
  exact Writes.bind (Writes.bytes _) <| Writes.bind (Writes.bytes _) <|
    Writes.bind (Writes.datetime hv) <| Writes.bind (Writes.bytes _) <|
    Writes.bind (Writes.bytes _) <| Writes.bind (Writes.seek _ _) <|
    Writes.bind (Writes.seek _ _) <| Writes.bind (Writes.string h10) <|
    Writes.bind (Writes.string h11) (Writes.string h12)

theorem Key.writes {k : Key} {v : Nat} (h : k.InRange) (hv : datetimeToU32 k.datetime = .ok v) :
    Writes k.marshal (k.enc v) (k.enc v).length := by
  obtain ⟨h1, -, -, h4, -, -, -, -, -, h10, h11, h12⟩ := h
  exact Key.writes_of h1 h4 h10.1 h11.1 h12.1 hv

/-- What the reader makes of a written key: same fields, the packed date taken for seconds. -/
def Key.afterRead (k : Key) (v : Nat) : Key := { k with datetime := v, left := 0, buffer := [] }

theorem Key.reads {k : Key} {v : Nat} (h : k.InRange) (hv : v < 2 ^ 32) :
    Reads Key.unmarshal (k.enc v) (k.afterRead v) := by
  obtain ⟨h1, h2, h3, -, h5, h6, h7, h8, h9, h10, h11, h12⟩ := h
  refine Reads.bind (Reads.sint (by decide) h2) ?_
  rw [if_neg (by omega)]
  refine Reads.bind (Reads.sint (by decide) h3) ?_
  refine Reads.bind (Reads.sint (by decide) h5) ?_
  refine Reads.bind (Reads.uint (k := 4) (by simpa using hv)) ?_
  refine Reads.bind (Reads.sint (by decide) h6) ?_
  refine Reads.bind (Reads.sint (by decide) h7) ?_
  refine Reads.bind (Reads.seek h8) ?_
  refine Reads.bind (Reads.seek h9) ?_
  refine Reads.bind (Reads.string (by omega) h10.2) ?_
  refine Reads.bind (Reads.string (by omega) h11.2) ?_
  refine (Reads.bind (b2 := []) (Reads.string (by omega) h12.2) ?_).congr (List.append_nil _)
  exact Reads.pure _

theorem tstringSizeof_eq (s : Str) : tstringSizeof s = ((encStr s).length : Int) := by
  rw [encStr_length]; unfold tstringSizeof; split <;> split <;> omega

theorem Key.enc_length (k : Key) (v : Nat) :
    ((k.enc v).length : Int) = 26 + (if 1000 < k.rvers then 8 else 0) + tstringSizeof k.cls +
      tstringSizeof k.name + tstringSizeof k.title := by
  rw [tstringSizeof_eq, tstringSizeof_eq, tstringSizeof_eq]
  simp only [Key.enc, List.length_append, encI_length, beBytes_length, encSeek_length]
  by_cases h : 1000 < k.rvers <;> simp [h] <;> omega

/-! ### Free segments -/

def FreeSegments.enc (s : FreeSegments) : List Byte :=
  encI 2 (if kStartBigFile < s.last then 1001 else 1) ++
    (encSeek (kStartBigFile < s.last) s.first ++ encSeek (kStartBigFile < s.last) s.last)

theorem FreeSegments.vers_big (s : FreeSegments) :
    decide ((1000 : Int) < (if kStartBigFile < s.last then 1 + 1000 else 1)) =
      decide (kStartBigFile < s.last) := by
  split <;> simp [*]

theorem FreeSegments.writes (s : FreeSegments) : Writes s.marshal s.enc s.enc.length := by
  apply Writes.counted
  simp only [FreeSegments.vers_big]
  exact Writes.bind (Writes.bytes _) (Writes.bind (Writes.seek _ _) (Writes.seek _ _))

theorem FreeSegments.reads {s : FreeSegments}
    (h1 : InSeek (kStartBigFile < s.last) s.first) (h2 : InSeek (kStartBigFile < s.last) s.last) :
    Reads FreeSegments.unmarshal s.enc s := by
  refine Reads.bind (Reads.sint (by decide) (v := if kStartBigFile < s.last then 1001 else 1)
    (by split <;> decide)) ?_
  have hb := FreeSegments.vers_big s
  simp only [show (1 : Int) + 1000 = 1001 from rfl] at hb
  rw [hb]
  refine Reads.bind (Reads.seek h1) ?_
  refine (Reads.bind (b2 := []) (Reads.seek h2) ?_).congr (List.append_nil _)
  exact Reads.pure _

theorem FreeSegments.enc_length (s : FreeSegments) : (s.enc.length : Int) = s.sizeOf := by
  simp only [FreeSegments.enc, List.length_append, encI_length, encSeek_length,
    FreeSegments.sizeOf]
  by_cases h : kStartBigFile < s.last <;> simp [h]

/-! ### File header -/

def FileHeader.enc (h : FileHeader) : List Byte :=
  rootMagic ++ (encI 4 h.writtenVersion ++ (encI 4 h.begin_ ++ (encSeek h.wide h.end_ ++
    (encSeek h.wide h.seekFree ++ (encI 4 h.nBytesFree ++ (encI 4 h.nFree ++
    (encI 4 h.nBytesName ++ (beBytes 1 h.units ++ (encI 4 h.compression ++
    (encSeek h.wide h.seekInfo ++ (encI 4 h.nBytesInfo ++ (encI 2 rversUuid ++ h.uuid))))))))))))

theorem FileHeader.written_wide {h : FileHeader} (hr : h.InRange) :
    decide (¬ h.writtenVersion < 1000000) = h.wide ∧
    decide (1000000 < h.writtenVersion) = h.wide ∧
    h.writtenVersion.tmod 1000000 = h.version ∧ InI 4 h.writtenVersion := by
  obtain ⟨h1, h2, -, -, -, -, -, -, -, -, -, -, -, h3, -⟩ := hr
  unfold FileHeader.writtenVersion
  by_cases hw : h.wide = true
  · have := h3 hw
    rw [if_pos hw, if_pos h2]
    refine ⟨by simp [hw]; omega, by simp [hw]; omega, ?_, ?_⟩
    · rw [Int.tmod_eq_emod_of_nonneg (by omega)]; omega
    · constructor <;> omega
  · rw [if_neg hw]
    refine ⟨by simp [hw]; omega, by simp [hw]; omega, ?_, ?_⟩
    · rw [Int.tmod_eq_emod_of_nonneg (by omega)]; omega
    · constructor <;> omega

theorem FileHeader.writes {h : FileHeader} (hr : h.InRange) :
    Writes h.marshal h.enc h.enc.length := by
  apply Writes.counted
  simp only [(FileHeader.written_wide hr).1]
  exact Writes.bind (Writes.bytes _) <| Writes.bind (Writes.bytes _) <|
    Writes.bind (Writes.bytes _) <| Writes.bind (Writes.seek _ _) <|
    Writes.bind (Writes.seek _ _) <| Writes.bind (Writes.bytes _) <|
    Writes.bind (Writes.bytes _) <| Writes.bind (Writes.bytes _) <|
    Writes.bind (Writes.bytes _) <| Writes.bind (Writes.bytes _) <|
    Writes.bind (Writes.seek _ _) <| Writes.bind (Writes.bytes _) <|
    Writes.bind (Writes.bytes _) (Writes.bytes _)

theorem inI4_of_small {v : Int} (h0 : 0 ≤ v) (h : v ≤ kStartBigFile) : InI 4 v := by
  simp only [kStartBigFile] at h
  constructor <;> omega

theorem FileHeader.inSeek {h : FileHeader} (hr : h.InRange) :
    InSeek h.wide h.end_ ∧ InSeek h.wide h.seekFree ∧ InSeek h.wide h.seekInfo := by
  obtain ⟨-, -, -, h4, h5, -, -, -, -, -, h6, -, -, -, h7, h8, h9⟩ := hr
  by_cases hw : h.wide = true
  · simp only [InSeek, hw]; exact ⟨h4, h5, h6⟩
  · have hw' := hw
    simp only [FileHeader.wide, FileHeader.isBig, Bool.or_eq_true, decide_eq_true_eq] at hw'
    simp only [InSeek, hw]
    exact ⟨inI4_of_small h7 (by omega), inI4_of_small h8 (by omega), inI4_of_small h9 (by omega)⟩

theorem FileHeader.reads {h : FileHeader} (hr : h.InRange) : Reads FileHeader.unmarshal h.enc h := by
  obtain ⟨-, w2, w3, w4⟩ := FileHeader.written_wide hr
  obtain ⟨s1, s2, s3⟩ := FileHeader.inSeek hr
  obtain ⟨h1, h2, h3, -, -, h6, h7, h8, h9, h10, -, h12, h13, -⟩ := hr
  refine Reads.bind (Reads.take rootMagic) ?_
  rw [if_neg (by simp)]
  refine Reads.bind (Reads.sint (by decide) w4) ?_
  rw [w2]
  refine Reads.bind (Reads.sint (by decide) h3) ?_
  refine Reads.bind (Reads.seek s1) ?_
  refine Reads.bind (Reads.seek s2) ?_
  refine Reads.bind (Reads.sint (by decide) h6) ?_
  refine Reads.bind (Reads.sint (by decide) h7) ?_
  refine Reads.bind (Reads.sint (by decide) h8) ?_
  refine Reads.bind (Reads.uint (by simpa using h9)) ?_
  refine Reads.bind (Reads.sint (by decide) h10) ?_
  refine Reads.bind (Reads.seek s3) ?_
  refine Reads.bind (Reads.sint (by decide) h12) ?_
  refine Reads.bind (Reads.uint (k := 2) (v := wrapI 2 rversUuid) (by decide)) ?_
  refine (Reads.bind (b2 := []) (h13 ▸ Reads.take h.uuid) ?_).congr (List.append_nil _)
  rw [w3]
  exact Reads.pure _

theorem FileHeader.enc_length {h : FileHeader} (hr : h.InRange) :
    h.enc.length = if h.wide then 75 else 63 := by
  have : h.uuid.length = 16 := hr.2.2.2.2.2.2.2.2.2.2.2.2.1
  simp only [FileHeader.enc, List.length_append, encI_length, encSeek_length, beBytes_length, this]
  split <;> simp [rootMagic]

/-! ### Directory record -/

def Dir.enc (d : Dir) (c m : Nat) : List Byte :=
  encI 2 d.rvers ++ (beBytes 4 c ++ (beBytes 4 m ++ (encI 4 d.nBytesKeys ++
    (encI 4 d.nBytesName ++ (encSeek d.isBig d.seekDir ++ (encSeek d.isBig d.seekParent ++
    (encSeek d.isBig d.seekKeys ++ (encI 2 rversUuid ++ d.uuid))))))))

theorem Dir.writes {d : Dir} {c m : Nat} (hc : datetimeToU32 d.ctime = .ok c)
    (hm : datetimeToU32 d.mtime = .ok m) : Writes d.marshal (d.enc c m) (d.enc c m).length := by
  apply Writes.counted
  exact Writes.bind (Writes.bytes _) <| Writes.bind (Writes.datetime hc) <|
    Writes.bind (Writes.datetime hm) <| Writes.bind (Writes.bytes _) <|
    Writes.bind (Writes.bytes _) <| Writes.bind (Writes.seek _ _) <|
    Writes.bind (Writes.seek _ _) <| Writes.bind (Writes.seek _ _) <|
    Writes.bind (Writes.bytes _) (Writes.bytes _)

/-- What the reader makes of a written directory record. -/
def Dir.afterRead (d : Dir) (c m : Nat) : Dir :=
  { ctime := c, mtime := m, nBytesKeys := d.nBytesKeys, nBytesName := d.nBytesName,
    rvers := d.rvers, uuid := d.uuid, seekDir := d.seekDir, seekParent := d.seekParent,
    seekKeys := d.seekKeys }

theorem Dir.reads {d : Dir} {c m : Nat} (h : d.InRange) (hc : c < 2 ^ 32) (hm : m < 2 ^ 32) :
    Reads Dir.unmarshal (d.enc c m) (d.afterRead c m) := by
  obtain ⟨h1, h2, h3, h4, h5, h6, h7⟩ := h
  refine Reads.bind (Reads.sint (by decide) h1) ?_
  refine Reads.bind (Reads.uint (k := 4) (by simpa using hc)) ?_
  refine Reads.bind (Reads.uint (k := 4) (by simpa using hm)) ?_
  refine Reads.bind (Reads.sint (by decide) h2) ?_
  refine Reads.bind (Reads.sint (by decide) h3) ?_
  refine Reads.bind (Reads.seek h4) ?_
  refine Reads.bind (Reads.seek h5) ?_
  refine Reads.bind (Reads.seek h6) ?_
  refine Reads.bind (Reads.uint (k := 2) (v := wrapI 2 rversUuid) (by decide)) ?_
  refine (Reads.bind (b2 := []) (h7 ▸ Reads.take d.uuid) ?_).congr (List.append_nil _)
  exact Reads.pure _

theorem Dir.enc_length {d : Dir} (h : d.uuid.length = 16) (c m : Nat) :
    (d.enc c m).length = if d.isBig then 60 else 48 := by
  simp only [Dir.enc, List.length_append, encI_length, encSeek_length, beBytes_length, h]
  split <;> simp

end Verif
