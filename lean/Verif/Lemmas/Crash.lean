import Verif.Lemmas.Opened
/-
Opening what a process that stopped left on disk.
-/
namespace Verif

theorem openFile_starts {dec : Decoders} {fuel : Nat} {img : List Byte} {r : FileR}
    (h : openFile dec fuel img = .ok r) :
    ∃ buf hd d keys, readAt img 0 76 = .ok buf ∧ readWith FileHeader.unmarshal buf = .ok hd ∧
      readDirInfo img hd = .ok d ∧ readKeys img d = .ok keys := by
  unfold openFile at h
  obtain ⟨buf, h1, h⟩ := Res.ok_bind.1 h
  obtain ⟨hd, h2, h⟩ := Res.ok_bind.1 h
  obtain ⟨d, h3, h⟩ := Res.ok_bind.1 h
  obtain ⟨_, _, h⟩ := Res.ok_bind.1 h
  obtain ⟨_, _, h⟩ := Res.ok_bind.1 h
  obtain ⟨keys, h4, _⟩ := Res.ok_bind.1 h
  exact ⟨buf, hd, d, keys, h1, h2, h3, h4⟩

theorem readAt_inv {img : List Byte} {pos len : Int} {bs : List Byte} (h : readAt img pos len = .ok bs)
    (hl : len ≠ 0) : 0 ≤ pos ∧ 0 ≤ len ∧ pos + len ≤ img.length ∧
      bs = (img.drop pos.toNat).take len.toNat := by
  unfold readAt at h
  split at h
  · cases h
  split at h
  · cases h
  split at h
  · injection h with h; exact ⟨by omega, by omega, by omega, h.symm⟩
  · first | cases h | (split at h <;> first | contradiction | cases h)

/-- The first fields of the file header. -/
theorem header_fields {m v b e rest : List Byte} {hd : FileHeader} (hm : m.length = 4)
    (hv : v.length = 4) (hb : b.length = 4) (he : e.length = 8)
    (h : readWith FileHeader.unmarshal (m ++ (v ++ (b ++ (e ++ rest)))) = .ok hd) :
    m = rootMagic ∧ hd.begin_ = toSigned 4 (beNat b) ∧
      (hd.end_ = toSigned 4 (beNat (e.take 4)) ∨ hd.end_ = toSigned 8 (beNat e)) := by
  obtain ⟨r', h⟩ := readWith_ok h
  unfold FileHeader.unmarshal at h
  have h1 := Rd.take_ok (r := RBuffer.fresh (m ++ (v ++ (b ++ (e ++ rest)))) 0) (bs := m)
    (Nat.zero_le _) (by simp [RBuffer.rest])
  rw [hm] at h1
  rw [Rd.bind_ok h1] at h
  split at h
  · cases h
  · next hmag =>
    refine ⟨by simpa using hmag, ?_⟩
    have h2 : Rd.i32 ((RBuffer.fresh (m ++ (v ++ (b ++ (e ++ rest)))) 0).adv 4) = _ :=
      Rd.sint_ok (bs := v) hv (by simp; omega) (by simp [RBuffer.rest, ← hm])
    rw [Rd.bind_ok h2] at h
    have e8 : m ++ (v ++ (b ++ (e ++ rest))) = (m ++ v) ++ (b ++ (e ++ rest)) := by simp
    have e12 : m ++ (v ++ (b ++ (e ++ rest))) = (m ++ v ++ b) ++ (e ++ rest) := by simp
    have h3 : Rd.i32 (((RBuffer.fresh (m ++ (v ++ (b ++ (e ++ rest)))) 0).adv 4).adv 4) = _ :=
      Rd.sint_ok (bs := b) hb (by simp; omega) (by
        show b <+: (m ++ (v ++ (b ++ (e ++ rest)))).drop (0 + 4 + 4)
        rw [e8, drop_append_length _ _ _ (by simp; omega)]
        exact List.prefix_append _ _)
    rw [Rd.bind_ok h3] at h
    have hrest : (m ++ (v ++ (b ++ (e ++ rest)))).drop (0 + 4 + 4 + 4) = e ++ rest := by
      rw [e12, drop_append_length _ _ _ (by simp; omega)]
    generalize toSigned 4 (beNat v) = ver at h
    by_cases hw : (1000000 : Int) < ver
    · have h4 : Rd.seek (decide ((1000000 : Int) < ver))
          ((((RBuffer.fresh (m ++ (v ++ (b ++ (e ++ rest)))) 0).adv 4).adv 4).adv 4) = .ok (toSigned 8 (beNat e), ((((RBuffer.fresh (m ++ (v ++ (b ++ (e ++ rest)))) 0).adv 4).adv 4).adv 4).adv 8) := by
        rw [decide_eq_true hw]
        exact Rd.sint_ok (bs := e) he (by simp; omega) (by
          show e <+: (m ++ (v ++ (b ++ (e ++ rest)))).drop (0 + 4 + 4 + 4)
          rw [hrest]; exact List.prefix_append _ _)
      rw [Rd.bind_ok h4] at h
      obtain ⟨_, _, _, h⟩ := Rd.bind_eq_ok h
      obtain ⟨_, _, _, h⟩ := Rd.bind_eq_ok h
      obtain ⟨_, _, _, h⟩ := Rd.bind_eq_ok h
      obtain ⟨_, _, _, h⟩ := Rd.bind_eq_ok h
      obtain ⟨_, _, _, h⟩ := Rd.bind_eq_ok h
      obtain ⟨_, _, _, h⟩ := Rd.bind_eq_ok h
      obtain ⟨_, _, _, h⟩ := Rd.bind_eq_ok h
      obtain ⟨_, _, _, h⟩ := Rd.bind_eq_ok h
      obtain ⟨_, _, _, h⟩ := Rd.bind_eq_ok h
      obtain ⟨_, _, _, h⟩ := Rd.bind_eq_ok h
      injection h with h
      injection h with h _
      rw [← h]
      exact ⟨rfl, Or.inr rfl⟩
    · have h4 : Rd.seek (decide ((1000000 : Int) < ver))
          ((((RBuffer.fresh (m ++ (v ++ (b ++ (e ++ rest)))) 0).adv 4).adv 4).adv 4) = .ok (toSigned 4 (beNat (e.take 4)), ((((RBuffer.fresh (m ++ (v ++ (b ++ (e ++ rest)))) 0).adv 4).adv 4).adv 4).adv 4) := by
        rw [decide_eq_false hw]
        exact Rd.sint_ok (bs := e.take 4) (by simp [he]) (by simp; omega) (by
          show e.take 4 <+: (m ++ (v ++ (b ++ (e ++ rest)))).drop (0 + 4 + 4 + 4)
          rw [hrest]
          exact (List.take_prefix 4 e).trans (List.prefix_append _ _))
      rw [Rd.bind_ok h4] at h
      obtain ⟨_, _, _, h⟩ := Rd.bind_eq_ok h
      obtain ⟨_, _, _, h⟩ := Rd.bind_eq_ok h
      obtain ⟨_, _, _, h⟩ := Rd.bind_eq_ok h
      obtain ⟨_, _, _, h⟩ := Rd.bind_eq_ok h
      obtain ⟨_, _, _, h⟩ := Rd.bind_eq_ok h
      obtain ⟨_, _, _, h⟩ := Rd.bind_eq_ok h
      obtain ⟨_, _, _, h⟩ := Rd.bind_eq_ok h
      obtain ⟨_, _, _, h⟩ := Rd.bind_eq_ok h
      obtain ⟨_, _, _, h⟩ := Rd.bind_eq_ok h
      obtain ⟨_, _, _, h⟩ := Rd.bind_eq_ok h
      injection h with h
      injection h with h _
      rw [← h]
      exact ⟨rfl, Or.inl rfl⟩

theorem dirRecordSize_pos (v : Int) : 48 ≤ asU64 (dirRecordSize v) := by
  unfold dirRecordSize; split <;> decide

/-- What reading the directory record needs. -/
theorem readDirInfo_starts {img : List Byte} {hd : FileHeader} {d : Dir}
    (h : readDirInfo img hd = .ok d) :
    asU64 hd.nBytesName + asU64 (dirRecordSize hd.version) + asU64 hd.begin_ ≤ asU64 hd.end_ ∧
    0 ≤ hd.begin_ ∧
    hd.begin_ + (asU64 hd.nBytesName + asU64 (dirRecordSize hd.version) : Nat) ≤ img.length ∧
    ∃ d0 : Dir, readWith Dir.unmarshal (((img.drop hd.begin_.toNat).take
      (asU64 hd.nBytesName + asU64 (dirRecordSize hd.version))).drop hd.nBytesName.toNat) = .ok d0 ∧
      d.seekKeys = d0.seekKeys := by
  have h48 := dirRecordSize_pos hd.version
  unfold readDirInfo at h
  simp only at h
  split at h
  · cases h
  split at h
  · cases h
  next h1 h2 =>
  split at h
  · cases h
  · next data hr =>
    obtain ⟨i1, i2, i3, i4⟩ := readAt_inv hr (by omega)
    obtain ⟨d0, j1, h⟩ := Res.ok_bind.1 h
    obtain ⟨vers, j2, h⟩ := Res.ok_bind.1 h
    refine ⟨by omega, i1, i3, d0, by rw [i4] at j1; exact j1, ?_⟩
    generalize (if (1000 : Int) < vers then 34 else 26) = nk at h
    split at h
    · cases h
    obtain ⟨names, j3, h⟩ := Res.ok_bind.1 h
    split at h
    · cases h
    injection h with h
    rw [← h]

theorem readKeys_pos {img : List Byte} {d : Dir} {ks : List Key} (h : readKeys img d = .ok ks) :
    0 < d.seekKeys := by
  unfold readKeys at h
  split at h
  · cases h
  · omega

/-- The parts of the image that opening it depends on. -/
theorem open_fields {dec : Decoders} {fuel : Nat} {img : List Byte} {r : FileR}
    (h : openFile dec fuel img = .ok r) :
    76 ≤ img.length ∧ img.take 4 = rootMagic ∧ ∃ hd d, readWith FileHeader.unmarshal (img.take 76) = .ok hd ∧
      hd.begin_ = toSigned 4 (beNat ((img.drop 8).take 4)) ∧
      (hd.end_ = toSigned 4 (beNat ((img.drop 12).take 4)) ∨
        hd.end_ = toSigned 8 (beNat ((img.drop 12).take 8))) ∧
      readDirInfo img hd = .ok d ∧ 0 < d.seekKeys := by
  obtain ⟨buf, hd, d, ks, h1, h2, h3, h4⟩ := openFile_starts h
  obtain ⟨-, -, h5, h6⟩ := readAt_inv h1 (by decide)
  have h6 : buf = img.take 76 := h6
  subst h6
  have hlen : 76 ≤ img.length := by omega
  have e : img.take 76 = img.take 4 ++ ((img.drop 4).take 4 ++ ((img.drop 8).take 4 ++
      ((img.drop 12).take 8 ++ (img.drop 20).take 56))) := by
    rw [show (76 : Nat) = 4 + (4 + (4 + (8 + 56))) from rfl, List.take_add, List.take_add, List.take_add,
      List.take_add, List.drop_drop, List.drop_drop, List.drop_drop]
  have h2' := h2
  rw [e] at h2'
  obtain ⟨g1, g2, g3⟩ := header_fields (by simp; omega) (by simp; omega) (by simp; omega)
    (by simp; omega) h2'
  rw [List.take_take] at g3
  exact ⟨hlen, g1, hd, d, h2, g2, g3, h3, readKeys_pos h4⟩

/-- An image without anything beyond the header area, where the header may be torn. -/
theorem torn_header {dec : Decoders} {fuel k : Nat} {h : FileHeader} (hb : h.begin_ = 100)
    (hl : h.enc.length ≤ 100) (r : FileR) :
    openFile dec fuel (writeAt (List.replicate 100 0) ⟨0, h.enc.take k⟩) ≠ .ok r := by
  intro hok
  obtain ⟨-, h1, hd, d, -, h2, h3, h4, -⟩ := open_fields hok
  obtain ⟨j1, j2, j3, -⟩ := readDirInfo_starts h4
  have h48 := dirRecordSize_pos hd.version
  have hlen : (writeAt (List.replicate 100 0) ⟨0, h.enc.take k⟩).length = 100 := by
    rw [writeAt_length]
    split
    · simp
    · simp only [List.length_replicate, List.length_take]; omega
  rw [hlen] at j3
  rcases Nat.lt_or_ge k 12 with hk | hk
  · have hz : ((writeAt (List.replicate 100 0) ⟨0, h.enc.take k⟩).drop 12) = List.replicate 88 0 := by
      unfold writeAt
      split
      · rfl
      · simp only [List.take_zero, List.nil_append, Nat.zero_sub, List.replicate_zero, Nat.zero_add,
          List.drop_replicate]
        have : (h.enc.take k).length ≤ k := by simp; omega
        rw [List.drop_append, List.drop_eq_nil_of_le (by omega), List.nil_append, List.drop_replicate]
        congr 1
        omega
    rw [hz] at h3
    have : asU64 hd.end_ = 0 := by
      rcases h3 with h3 | h3 <;> rw [h3] <;> decide
    omega
  · have hs := Stored.written (List.replicate 100 0) ⟨0, h.enc.take k⟩
    obtain ⟨rest, he⟩ : ∃ rest, h.enc = (rootMagic ++ encI 4 h.writtenVersion) ++ (encI 4 100 ++ rest) := by
      unfold FileHeader.enc
      rw [hb]
      exact ⟨_, by rw [List.append_assoc]⟩
    have hs' : Stored (writeAt (List.replicate 100 0) ⟨0, h.enc.take k⟩) 8 (encI 4 100) := by
      have hrm : rootMagic.length = 4 := rfl
      have e2 : h.enc.take k = (rootMagic ++ encI 4 h.writtenVersion) ++ (encI 4 100 ++ rest.take (k - 12)) := by
        rw [he, List.take_append, List.take_of_length_le (by rw [List.length_append, encI_length]; omega), List.take_append,
          List.take_of_length_le (by rw [List.length_append, encI_length, encI_length]; omega)]
        simp only [List.length_append, encI_length]
        rw [show k - (rootMagic.length + 4) - 4 = k - 12 by
          rw [show rootMagic.length = 4 from rfl]; omega]
      have h8 : (rootMagic ++ encI 4 h.writtenVersion).length = 8 := by simp [encI_length]; rfl
      have := (Stored.append.1 (show Stored _ 0 ((rootMagic ++ encI 4 h.writtenVersion) ++
        (encI 4 100 ++ rest.take (k - 12))) by rw [← e2]; exact hs)).2
      rw [h8] at this
      exact (Stored.append.1 this).1
    have : ((writeAt (List.replicate 100 0) ⟨0, h.enc.take k⟩).drop 8).take 4 = encI 4 100 := by
      obtain ⟨t, ht⟩ := hs'
      rw [← ht, List.take_append_of_le_length (by simp [encI_length]),
        List.take_of_length_le (by simp [encI_length])]
    rw [this] at h2
    have h2 : hd.begin_ = 100 := h2.trans (by decide)
    rw [h2] at j3
    omega

/-- The header of a new file, whatever follows. -/
theorem created_header {path : Str} (hlim : dirPos path + 60 ≤ kStartBigFile) {img : List Byte}
    (hs : Stored img 0 (createdHeader path).enc) {hd : FileHeader}
    (h : readWith FileHeader.unmarshal (img.take 76) = .ok hd) : hd = createdHeader path := by
  have hr := (createdHeader_inRange hlim).1
  have hl := FileHeader.enc_length hr
  obtain ⟨t, ht⟩ := hs
  have ht : (createdHeader path).enc ++ t = img := ht
  have hle : (createdHeader path).enc.length ≤ 76 := by rw [hl]; split <;> omega
  have e : img.take 76 = (createdHeader path).enc ++ t.take (76 - (createdHeader path).enc.length) := by
    rw [← ht, List.take_append, List.take_of_length_le hle]
  have := readWith_reads (off := 0) (FileHeader.reads hr) e
  rw [this] at h
  injection h with h
  exact h.symm

/-- A file whose directory record was never rewritten: too short, or without a list of keys. -/
theorem created_not_ok {path : Str} (hlim : dirPos path + 60 ≤ kStartBigFile) {img : List Byte}
    {dec : Decoders} {fuel : Nat} (hs : Stored img 0 (createdHeader path).enc)
    (hk : dirPos path + 60 ≤ img.length →
      Stored img 100 ((dirKey path).enc packedNow ++ (encStr path ++ (encStr [] ++
        (createdDir path).enc packedNow packedNow)))) (r : FileR) :
    openFile dec fuel img ≠ .ok r := by
  intro hok
  obtain ⟨-, -, hd, d, h1, -, -, h4, h5⟩ := open_fields hok
  have hd := created_header hlim hs h1
  subst hd
  obtain ⟨-, -, j3, d0, j4, j5⟩ := readDirInfo_starts h4
  have hdp : dirPos path = 100 + (dirKeyLen path + dirNameLen path) := rfl
  have hk26 : 26 ≤ dirKeyLen path := (keyLenFor_ge path [] (b! "TFile") false false).1
  have hn0 : 0 < dirNameLen path := by
    have h1 := tstringSizeof_pos path
    have h3 : tstringSizeof [] = 1 := rfl
    unfold dirNameLen; omega
  have hlim' : dirPos path + 60 ≤ 2000000000 := hlim
  have a1 : asU64 (createdHeader path).nBytesName = (dirKeyLen path + dirNameLen path).toNat :=
    asU64_of (x := dirKeyLen path + dirNameLen path) (by omega)
      (by show _ ≤ (2000000000 : Int); omega)
  have a2 : asU64 (dirRecordSize (createdHeader path).version) = 60 := rfl
  have a3 : (createdHeader path).begin_ = 100 := rfl
  have a4 : (createdHeader path).nBytesName = dirKeyLen path + dirNameLen path := rfl
  rw [a1, a2, a3] at j3 j4
  rw [a4] at j4
  have hlong : dirPos path + 60 ≤ img.length := by omega
  obtain ⟨t, ht⟩ := hk hlong
  have hkl : (((dirKey path).enc packedNow).length : Int) = dirKeyLen path :=
    (Key.at_enc_length path [] (b! "TFile") 1 (dirNameLen path + 60) 100 0
      (dirPayload path (createdDir path))).trans (Int.sub_zero _)
  have hnl : ((encStr path ++ encStr []).length : Int) = dirNameLen path := by
    unfold dirNameLen
    rw [tstringSizeof_eq, tstringSizeof_eq, List.length_append, Int.natCast_add]
  have hrange : (createdDir path).InRange := by
    refine ⟨(by decide : InI 2 5), (by decide : InI 4 0), ?_, (by decide : InI 4 100),
      (by decide : InI 4 0), (by decide : InI 4 0), by rfl⟩
    show InI 4 (dirKeyLen path + dirNameLen path)
    exact inI4_of_small (by omega) (by show _ ≤ (2000000000 : Int); omega)
  have hdl : ((createdDir path).enc packedNow packedNow).length = 48 := by
    have := Dir.enc_length (d := createdDir path) rfl packedNow packedNow
    exact this
  have e : ((img.drop (100 : Int).toNat).take ((dirKeyLen path + dirNameLen path).toNat + 60)).drop
      (dirKeyLen path + dirNameLen path).toNat =
      (createdDir path).enc packedNow packedNow ++ t.take 12 := by
    have e1 : (100 : Int).toNat = 100 := rfl
    rw [e1, ← ht, ← List.append_assoc (encStr path), ← List.append_assoc ((dirKey path).enc packedNow),
      List.append_assoc, List.take_append, List.take_of_length_le (by rw [List.length_append]; omega),
      drop_append_length _ _ _ (by rw [List.length_append]; omega)]
    have : (dirKeyLen path + dirNameLen path).toNat + 60 - ((dirKey path).enc packedNow ++
      (encStr path ++ encStr [])).length = 60 := by rw [List.length_append]; omega
    rw [this, List.take_append, List.take_of_length_le (by omega), hdl]
  have := readWith_reads (off := 0) (Dir.reads hrange packedNow_lt packedNow_lt) e
  rw [this] at j4
  injection j4 with j4
  rw [j5, ← j4] at h5
  exact absurd h5 (by show ¬ (0 : Int) < 0; decide)

/-- The first writes of a session. -/
theorem crash_not_ok {path : Str} (hlim : dirPos path + 60 ≤ kStartBigFile) {ws : List DiskWrite}
    (hws : ∀ w ∈ ws, dirPos path + 60 ≤ (w.pos : Int)) (n k : Nat) {dec : Decoders} {fuel : Nat}
    (r : FileR) : openFile dec fuel (crashImage (createdTrace path ++ ws) n k) ≠ .ok r := by
  obtain ⟨hr, hwide⟩ := createdHeader_inRange hlim
  have hl := FileHeader.enc_length hr
  rw [hwide, if_neg (by decide)] at hl
  have hdp := dirPos_ge path
  have hdp' : dirPos path = 100 + (dirKeyLen path + dirNameLen path) := rfl
  have hk26 : 26 ≤ dirKeyLen path := (keyLenFor_ge path [] (b! "TFile") false false).1
  have hkl : (((dirKey path).enc packedNow).length : Int) = dirKeyLen path :=
    (Key.at_enc_length path [] (b! "TFile") 1 (dirNameLen path + 60) 100 0
      (dirPayload path (createdDir path))).trans (Int.sub_zero _)
  have hpl := dirPayload_length path (createdDir path) rfl rfl
  have e : createdTrace path ++ ws = [⟨0, List.replicate 100 0⟩, ⟨0, (createdHeader path).enc⟩,
      ⟨100, (dirKey path).enc packedNow⟩, ⟨(100 + dirKeyLen path).toNat, dirPayload path (createdDir path)⟩]
      ++ ws := rfl
  rw [e]
  have hz : writeAt [] ⟨0, List.replicate 100 0⟩ = List.replicate 100 0 := by simp [writeAt]
  match n with
  | 0 =>
    -- nothing but zeros
    intro hok
    obtain ⟨h1, h2, -⟩ := open_fields hok
    have e1 : crashImage ([⟨0, List.replicate 100 0⟩, ⟨0, (createdHeader path).enc⟩,
      ⟨100, (dirKey path).enc packedNow⟩, ⟨(100 + dirKeyLen path).toNat, dirPayload path (createdDir path)⟩]
      ++ ws) 0 k = writeAt [] ⟨0, (List.replicate 100 0).take k⟩ := rfl
    rw [e1] at h1 h2
    have e2 : writeAt [] ⟨0, (List.replicate 100 0).take k⟩ = List.replicate (min k 100) 0 := by
      unfold writeAt
      rw [List.take_replicate]
      split
      · next h => exact Eq.symm h
      · simp
    rw [e2] at h1 h2
    simp only [List.length_replicate] at h1
    rw [List.take_replicate, show min 4 (min k 100) = 4 by omega] at h2
    exact absurd h2 (by decide)
  | 1 =>
    have e1 : crashImage ([⟨0, List.replicate 100 0⟩, ⟨0, (createdHeader path).enc⟩,
      ⟨100, (dirKey path).enc packedNow⟩, ⟨(100 + dirKeyLen path).toNat, dirPayload path (createdDir path)⟩]
      ++ ws) 1 k = writeAt (writeAt [] ⟨0, List.replicate 100 0⟩)
        ⟨0, (createdHeader path).enc.take k⟩ := rfl
    rw [e1, hz]
    exact torn_header rfl (by omega) r
  | n + 2 =>
    -- the header is complete
    have hsplit : ∃ post : List DiskWrite, crashImage ([⟨0, List.replicate 100 0⟩, ⟨0, (createdHeader path).enc⟩,
      ⟨100, (dirKey path).enc packedNow⟩, ⟨(100 + dirKeyLen path).toNat, dirPayload path (createdDir path)⟩]
      ++ ws) (n + 2) k = image ([⟨0, List.replicate 100 0⟩, ⟨0, (createdHeader path).enc⟩] ++ post) ∧
      ((∀ w ∈ post, 100 ≤ w.pos ∧ (w.pos : Int) + w.data.length ≤ dirPos path + 48) ∨
        ∃ qs, post = [⟨100, (dirKey path).enc packedNow⟩,
          ⟨(100 + dirKeyLen path).toNat, dirPayload path (createdDir path)⟩] ++ qs ∧
          ∀ w ∈ qs, dirPos path + 60 ≤ (w.pos : Int)) := by
      match n with
      | 0 =>
        refine ⟨[⟨100, ((dirKey path).enc packedNow).take k⟩], rfl, .inl fun w hw => ?_⟩
        rw [List.mem_singleton.1 hw]
        have : (((dirKey path).enc packedNow).take k).length ≤ ((dirKey path).enc packedNow).length := by
          simp; omega
        refine ⟨Nat.le_refl _, ?_⟩
        show ((100 : Nat) : Int) + (((dirKey path).enc packedNow).take k).length ≤ _
        omega
      | 1 =>
        refine ⟨[⟨100, (dirKey path).enc packedNow⟩,
          ⟨(100 + dirKeyLen path).toNat, (dirPayload path (createdDir path)).take k⟩], rfl,
          .inl fun w hw => ?_⟩
        have : ((dirPayload path (createdDir path)).take k).length ≤
          (dirPayload path (createdDir path)).length := by simp; omega
        simp only [List.mem_cons, List.not_mem_nil, or_false] at hw
        rcases hw with rfl | rfl
        · refine ⟨Nat.le_refl _, ?_⟩
          show ((100 : Nat) : Int) + ((dirKey path).enc packedNow).length ≤ _
          omega
        · refine ⟨by show 100 ≤ (100 + dirKeyLen path).toNat; omega, ?_⟩
          show (((100 + dirKeyLen path).toNat : Nat) : Int) +
            ((dirPayload path (createdDir path)).take k).length ≤ _
          omega
      | n + 2 =>
        have hq : ∃ qs, crashImage ([⟨0, List.replicate 100 0⟩, ⟨0, (createdHeader path).enc⟩,
            ⟨100, (dirKey path).enc packedNow⟩,
            ⟨(100 + dirKeyLen path).toNat, dirPayload path (createdDir path)⟩] ++ ws) (n + 2 + 2) k =
            image ([⟨0, List.replicate 100 0⟩, ⟨0, (createdHeader path).enc⟩] ++
            ([⟨100, (dirKey path).enc packedNow⟩,
            ⟨(100 + dirKeyLen path).toNat, dirPayload path (createdDir path)⟩] ++ qs)) ∧
            ∀ w ∈ qs, dirPos path + 60 ≤ (w.pos : Int) := by
          unfold crashImage
          have e1 : (([⟨0, List.replicate 100 0⟩, ⟨0, (createdHeader path).enc⟩,
            ⟨100, (dirKey path).enc packedNow⟩,
            ⟨(100 + dirKeyLen path).toNat, dirPayload path (createdDir path)⟩] : List DiskWrite) ++ ws)[n + 2 + 2]? =
              ws[n]? := by simp
          have e2 : (([⟨0, List.replicate 100 0⟩, ⟨0, (createdHeader path).enc⟩,
            ⟨100, (dirKey path).enc packedNow⟩,
            ⟨(100 + dirKeyLen path).toNat, dirPayload path (createdDir path)⟩] : List DiskWrite) ++ ws).take (n + 2 + 2) =
            [⟨0, List.replicate 100 0⟩, ⟨0, (createdHeader path).enc⟩] ++
            ([⟨100, (dirKey path).enc packedNow⟩,
            ⟨(100 + dirKeyLen path).toNat, dirPayload path (createdDir path)⟩] ++ ws.take n) := by
            rw [List.take_append, List.take_of_length_le (by simp)]
            rfl
          rw [e1, e2]
          cases hw : ws[n]? with
          | none => exact ⟨ws.take n, rfl, fun w h => hws w (List.mem_of_mem_take h)⟩
          | some w =>
            refine ⟨ws.take n ++ [{ w with data := w.data.take k }], ?_, fun v hv => ?_⟩
            · generalize ([⟨100, (dirKey path).enc packedNow⟩,
                ⟨(100 + dirKeyLen path).toNat, dirPayload path (createdDir path)⟩] : List DiskWrite) = B
              generalize ([⟨0, List.replicate 100 0⟩, ⟨0, (createdHeader path).enc⟩] : List DiskWrite) = A
              rw [show A ++ (B ++ (ws.take n ++ [{ w with data := w.data.take k }])) =
                (A ++ (B ++ ws.take n)) ++ [{ w with data := w.data.take k }] by simp,
                image_append (A ++ (B ++ ws.take n))]
              rfl
            · rcases List.mem_append.1 hv with h | h
              · exact hws v (List.mem_of_mem_take h)
              · rw [List.mem_singleton.1 h]
                exact hws w (List.mem_of_getElem? hw)
        obtain ⟨qs, q1, q2⟩ := hq
        exact ⟨_, q1, .inr ⟨qs, rfl, q2⟩⟩
    obtain ⟨post, hpost, hcase⟩ := hsplit
    rw [hpost]
    have h100 : ∀ w ∈ post, 100 ≤ w.pos := by
      intro w hw
      rcases hcase with h | ⟨qs, rfl, h⟩
      · exact (h w hw).1
      · simp only [List.cons_append, List.nil_append, List.mem_cons] at hw
        rcases hw with rfl | rfl | hw
        · exact Nat.le_refl _
        · show 100 ≤ (100 + dirKeyLen path).toNat; omega
        · have := h w hw; omega
    refine created_not_ok hlim ?_ (fun hlong => ?_) r
    · refine Stored.image (a := [⟨0, List.replicate 100 0⟩]) (w := ⟨0, (createdHeader path).enc⟩)
        (b := post) fun v hv => ?_
      have := h100 v hv
      exact Or.inl (by show 0 + (createdHeader path).enc.length ≤ _; omega)
    · rcases hcase with h | ⟨qs, rfl, h⟩
      · have := image_length_le ([⟨0, List.replicate 100 0⟩, ⟨0, (createdHeader path).enc⟩] ++ post)
          (dirPos path + 48).toNat (fun w hw => by
            simp only [List.cons_append, List.nil_append, List.mem_cons] at hw
            rcases hw with rfl | rfl | hw
            · simp only [List.length_replicate]; omega
            · show 0 + (createdHeader path).enc.length ≤ _; omega
            · have := (h w hw).2; omega)
        omega
      · have s1 : Stored (image ([⟨0, List.replicate 100 0⟩, ⟨0, (createdHeader path).enc⟩] ++
            ([⟨100, (dirKey path).enc packedNow⟩,
            ⟨(100 + dirKeyLen path).toNat, dirPayload path (createdDir path)⟩] ++ qs))) 100
            ((dirKey path).enc packedNow) := by
          refine Stored.image (a := [⟨0, List.replicate 100 0⟩, ⟨0, (createdHeader path).enc⟩])
            (w := ⟨100, (dirKey path).enc packedNow⟩)
            (b := ⟨(100 + dirKeyLen path).toNat, dirPayload path (createdDir path)⟩ :: qs) fun v hv => ?_
          rcases List.mem_cons.1 hv with rfl | hv
          · left; show 100 + ((dirKey path).enc packedNow).length ≤ (100 + dirKeyLen path).toNat; omega
          · have := h v hv
            left; show 100 + ((dirKey path).enc packedNow).length ≤ v.pos; omega
        have s2 : Stored (image ([⟨0, List.replicate 100 0⟩, ⟨0, (createdHeader path).enc⟩] ++
            ([⟨100, (dirKey path).enc packedNow⟩,
            ⟨(100 + dirKeyLen path).toNat, dirPayload path (createdDir path)⟩] ++ qs)))
            (100 + ((dirKey path).enc packedNow).length) (dirPayload path (createdDir path)) := by
          have e5 : 100 + ((dirKey path).enc packedNow).length = (100 + dirKeyLen path).toNat := by omega
          rw [e5]
          refine Stored.image (a := [⟨0, List.replicate 100 0⟩, ⟨0, (createdHeader path).enc⟩,
            ⟨100, (dirKey path).enc packedNow⟩])
            (w := ⟨(100 + dirKeyLen path).toNat, dirPayload path (createdDir path)⟩)
            (b := qs) fun v hv => ?_
          have := h v hv
          left
          show (100 + dirKeyLen path).toNat + (dirPayload path (createdDir path)).length ≤ v.pos
          omega
        exact Stored.append.2 ⟨s1, s2⟩

end Verif
