import Verif.Lemmas.SessionOps
namespace Verif

/-- Length of the key of the directory record. -/
def dirKeyLen (path : Str) : Int := keyLenFor path [] (b! "TFile") false false

/-- Length of the name and title of the file as stored. -/
def dirNameLen (path : Str) : Int := tstringSizeof path + tstringSizeof []

/-- First byte of the directory record proper. -/
def dirPos (path : Str) : Int := 100 + (dirKeyLen path + dirNameLen path)

/-- The header of a file which has just been created. -/
def createdHeader (path : Str) : FileHeader :=
  { version := rversRoot, begin_ := kBegin, end_ := dirPos path + 60, units := 4, compression := 1
    nBytesName := dirKeyLen path + dirNameLen path, nFree := 1 }

/-- The directory of a file which has just been created. -/
def createdDir (path : Str) : Dir :=
  { name := path, nBytesName := dirKeyLen path + dirNameLen path, seekDir := 100 }

/-- What is written behind the key of the directory. -/
def dirPayload (path : Str) (d : Dir) : List Byte :=
  encStr path ++ (encStr [] ++ d.enc packedNow packedNow)

/-- The key of the directory. -/
def dirKey (path : Str) : Key :=
  Key.at path [] (b! "TFile") 1 (dirNameLen path + 60) (dirKeyLen path) 100 0 false
    (dirPayload path (createdDir path))

/-- The four writes of `create`. -/
def createdTrace (path : Str) : List DiskWrite :=
  [⟨0, List.replicate 100 0⟩, ⟨0, (createdHeader path).enc⟩] ++
    (dirKey path).twoWrites ((dirKey path).enc packedNow)

/-- A file which has just been created. -/
def createdFile (path : Str) (ids : Nat) : FileW :=
  { header := createdHeader path
    spans := [⟨dirPos path + 60, kStartBigFile⟩]
    dir := createdDir path, id := path, ids := ids, trace := createdTrace path }

/-- The header as written: one free segment. -/
def FileHeader.oneFree (h : FileHeader) : FileHeader := { h with nFree := 1 }

theorem writeHeader_eq {f : FileW} (hs : f.spans.length = 1) (hb : f.header.begin_ = 100)
    (hr : f.header.oneFree.InRange) (hw : f.header.wide = false) :
    writeHeader f = (.ok (), { f with
      header := f.header.oneFree
      trace := f.trace ++ [⟨0, List.replicate 100 0⟩, ⟨0, f.header.oneFree.enc⟩] }) := by
  have h1 : asI 4 (f.spans.length : Int) = 1 := by rw [hs]; rfl
  have h2 : f.header.oneFree.adjusted = f.header.oneFree := by
    unfold FileHeader.adjusted
    have : f.header.oneFree.wide = false := hw
    rw [this]; rfl
  unfold writeHeader
  rw [Fs.bind_of_ok (f1 := { f with header := f.header.oneFree }) (a := ())
    (by rw [Fs.ok_modify, h1]; rfl)]
  rw [Fs.bind_of_ok (f1 := { f with header := f.header.oneFree }) (a := ())
    (by rw [Fs.ok_modify]; simp only [h2])]
  rw [Fs.bind_of_ok (Fs.ok_get.2 ⟨rfl, rfl⟩)]
  rw [Fs.bind_of_ok (Fs.marshal_writes (FileHeader.writes hr) _)]
  have hb' : f.header.oneFree.begin_ = 100 := hb
  rw [Fs.bind_of_ok (Fs.ok_writeAt.2 ⟨by decide, rfl⟩ : Fs.writeAt _ _ _ = (.ok (), _))]
  rw [(Fs.ok_writeAt.2 ⟨by decide, rfl⟩ : Fs.writeAt _ _ _ = (.ok (), _))]
  simp only [hb', List.append_assoc, List.singleton_append]
  rfl

theorem Writes.strTitleDir {name title : Str} {d : Dir} (hn : name.length < 2 ^ 31)
    (ht : title.length < 2 ^ 31) (hc : d.ctime = dateNow) (hm : d.mtime = dateNow) :
    Writes (Wr.counted do
      Wr.string name
      Wr.string title
      Wr.drop d.marshal)
      (encStr name ++ (encStr title ++ d.enc packedNow packedNow))
      (encStr name ++ (encStr title ++ d.enc packedNow packedNow)).length := by
  apply Writes.counted
  refine Writes.bind (Writes.string hn) (Writes.bind (Writes.string ht) (Writes.drop (a := (d.enc packedNow packedNow).length) ?_))
  exact Dir.writes (by rw [hc]; exact datetimeToU32_now) (by rw [hm]; exact datetimeToU32_now)

theorem inI4_bounds {v : Int} (h : InI 4 v) : -2147483648 ≤ v ∧ v < 2147483648 := by
  obtain ⟨h1, h2⟩ := h
  simp only [show (((256 : Nat) ^ 4 : Nat) : Int) = 4294967296 by decide] at h1 h2
  omega

theorem writeHeader_end {f f' : FileW} {u : Unit} (h : writeHeader f = (.ok u, f')) :
    f'.header.end_ = f.header.end_ := by
  unfold writeHeader at h
  obtain ⟨_, _, h0, h1⟩ := Fs.ok_bind.1 h
  cases Fs.ok_modify.1 h0
  obtain ⟨_, _, h0, h2⟩ := Fs.ok_bind.1 h1
  cases Fs.ok_modify.1 h0
  obtain ⟨_, _, h0, h3⟩ := Fs.ok_bind.1 h2
  obtain ⟨rfl, rfl⟩ := Fs.ok_get.1 h0
  obtain ⟨_, _, h0, h4⟩ := Fs.ok_bind.1 h3
  obtain ⟨-, rfl⟩ := Fs.ok_marshal.1 h0
  obtain ⟨_, _, h0, h5⟩ := Fs.ok_bind.1 h4
  obtain ⟨-, rfl⟩ := Fs.ok_writeAt.1 h0
  obtain ⟨-, rfl⟩ := Fs.ok_writeAt.1 h5
  simp only [FileHeader.adjusted]
  split <;> rfl

theorem Key.writeToFile_same {k : Key} {f f' : FileW} {u : Unit}
    (h : k.writeToFile f = (.ok u, f')) : f' = { f with trace := f'.trace } := by
  unfold Key.writeToFile at h
  split at h
  · cases h
  · obtain ⟨_, _, h0, h4⟩ := Fs.ok_bind.1 h
    obtain ⟨-, rfl⟩ := Fs.ok_marshal.1 h0
    obtain ⟨_, _, h0, h5⟩ := Fs.ok_bind.1 h4
    obtain ⟨-, rfl⟩ := Fs.ok_writeAt.1 h0
    obtain ⟨-, rfl⟩ := Fs.ok_writeAt.1 h5
    rfl

theorem dirRecordSize_root : dirRecordSize rversRoot = 60 := rfl

theorem createdHeader_inRange {path : Str} (hlim : dirPos path + 60 ≤ kStartBigFile) :
    (createdHeader path).InRange ∧ (createdHeader path).wide = false := by
  have hkl := keyLenFor_ge path [] (b! "TFile") false false
  have hsz := tstringSizeof_pos path
  have h1 : 26 ≤ dirKeyLen path := hkl.1
  have h2 : 0 < dirNameLen path := by
    have : tstringSizeof [] = 1 := rfl
    unfold dirNameLen; omega
  have hlim' := hlim
  unfold dirPos kStartBigFile at hlim'
  have hw : (createdHeader path).wide = false := by
    have e : decide (kStartBigFile < dirPos path + 60) = false := decide_eq_false (by omega)
    show (decide (kStartBigFile < dirPos path + 60) || _ || _) = false
    rw [e]
    rfl
  have z4 : InI 4 0 := by decide
  have z8 : InI 8 0 := by decide
  refine ⟨⟨(by decide : (0 : Int) ≤ 63002), (by decide : (63002 : Int) < 1000000),
    (by decide : InI 4 100), ?_, z8, z4, (by decide : InI 4 1), ?_, (by decide : 4 < 256),
    (by decide : InI 4 1), z8, z4, by rfl, by rw [hw]; simp, ?_, (by decide : (0 : Int) ≤ 0),
    (by decide : (0 : Int) ≤ 0)⟩, hw⟩
  · show InI 8 (dirPos path + 60)
    unfold dirPos
    constructor <;> omega
  · show InI 4 (dirKeyLen path + dirNameLen path)
    constructor <;> omega
  · show 0 ≤ dirPos path + 60
    unfold dirPos; omega

/-- A successful `create` of a file below the limit. -/
theorem create_ok {path : Str} {ids : Nat} {f : FileW} {u : Unit}
    (h : createFile (FileW.initial path ids) = (.ok u, f)) (hb : f.header.end_ ≤ kStartBigFile) :
    f = createdFile path ids ∧ dirPos path + 60 ≤ kStartBigFile := by
  have hsz := tstringSizeof_pos path
  have hkl := keyLenFor_ge path [] (b! "TFile") false false
  have hnl : 0 < dirNameLen path := by
    have : tstringSizeof [] = 1 := rfl
    unfold dirNameLen; omega
  unfold createFile at h
  rw [Fs.bind_of_ok (Fs.ok_get.2 ⟨rfl, rfl⟩)] at h
  obtain ⟨_, _, h0, h1⟩ := Fs.ok_bind.1 h
  obtain ⟨i0, rfl, rfl⟩ := Fs.ok_i32.1 h0
  obtain ⟨_, _, h2, h3⟩ := Fs.ok_bind.1 h1
  obtain ⟨i1, rfl, rfl⟩ := Fs.ok_i32.1 h2
  obtain ⟨k, f1, h4, h5⟩ := Fs.ok_bind.1 h3
  obtain ⟨i2, i3, hf1, hk⟩ := Key.new_ok (f := FileW.initial path ids) (rfl : _ = _) h4
  clear h h0 h1 h2 h3 h4
  have hlen : tstringSizeof (FileW.initial path ids).dir.name +
    tstringSizeof (FileW.initial path ids).dir.title +
      dirRecordSize (FileW.initial path ids).header.version = dirNameLen path + 60 := rfl
  rw [hlen] at hf1 hk i3
  rw [if_pos (by omega)] at hf1 hk
  have hkl' : (FileW.initial path ids).keyLenFor (FileW.initial path ids).dir.name
    (FileW.initial path ids).dir.title (b! "TFile") = dirKeyLen path := rfl
  rw [hkl'] at hf1 hk i2 i3
  obtain ⟨n, _, h6, h7⟩ := Fs.ok_bind.1 h5
  obtain ⟨i4, rfl, rfl⟩ := Fs.ok_i32.1 h6
  clear h5 h6
  have hend : f1.header.end_ = dirPos path + 60 := by
    rw [hf1]
    show (100 : Int) + (dirKeyLen path + (dirNameLen path + 60)) = _
    unfold dirPos; omega
  rw [Fs.bind_of_ok (Fs.ok_modify.2 rfl : Fs.modify _ _ = (.ok (), _))] at h7
  obtain ⟨_, f3, h8, h9⟩ := Fs.ok_bind.1 h7
  have he3 := writeHeader_end h8
  obtain ⟨_, _, h10, h11⟩ := Fs.ok_bind.1 h9
  obtain ⟨rfl, rfl⟩ := Fs.ok_get.1 h10
  obtain ⟨buf, _, h12, h13⟩ := Fs.ok_bind.1 h11
  have h14 := Fs.ok_marshal.1 h12
  obtain ⟨-, rfl⟩ := h14
  have hsame := Key.writeToFile_same h13
  have hlim : dirPos path + 60 ≤ kStartBigFile := by
    rw [hsame] at hb
    change f3.header.end_ ≤ _ at hb
    rw [he3] at hb
    change f1.header.end_ ≤ _ at hb
    rw [hend] at hb
    exact hb
  refine ⟨?_, hlim⟩
  have hlim' := hlim
  unfold dirPos kStartBigFile at hlim'
  have hk' : k = Key.at path [] (b! "TFile") 1 (dirNameLen path + 60) (dirKeyLen path) 100 0 false [] := by
    have hbig : f1.isBig = false := by
      simp only [FileW.isBig, FileHeader.isBig, decide_eq_false_iff_not, hend]; omega
    rw [hk, hbig]; rfl
  have hkpos : 26 ≤ dirKeyLen path := hkl.1
  have hpath : (path.length : Int) < dirKeyLen path := hkl.2.1
  have hnb : k.keyLen = dirKeyLen path := by rw [hk']; rfl
  have hsk : k.seekKey = 100 := by rw [hk']; rfl
  have he1 : (100 : Int) + (dirKeyLen path + (dirNameLen path + 60)) = dirPos path + 60 := by
    unfold dirPos; omega
  -- the header
  have hf1' : ({ f1 with
    header := { f1.header with nBytesName := k.keyLen + dirNameLen path }
    dir := { f1.dir with nBytesName := k.keyLen + dirNameLen path, seekDir := k.seekKey } } : FileW) =
    { header := { createdHeader path with nFree := 0 }, spans := [⟨dirPos path + 60, kStartBigFile⟩],
      dir := createdDir path, id := path, ids := ids, trace := [] } := by
    have : (FileW.initial path ids).header.end_ + (dirKeyLen path + (dirNameLen path + 60)) =
      dirPos path + 60 := he1
    rw [hf1, hnb, hsk, this]
    rfl
  have h8' := h8.symm.trans (congrArg writeHeader hf1')
  obtain ⟨r1, r2⟩ := createdHeader_inRange hlim
  have h8'' := h8'.trans (writeHeader_eq (f := { header := { createdHeader path with nFree := 0 }
                                                 spans := [⟨dirPos path + 60, kStartBigFile⟩]
                                                 dir := createdDir path, id := path, ids := ids
                                                 trace := [] }) rfl rfl r1 r2)
  injection h8'' with _ h8''
  have hid : f3.id = path := by rw [h8'']
  have hdir : f3.dir = createdDir path := by rw [h8'']
  have htt : (createdDir path).title = [] := rfl
  -- the payload
  have hpl : path.length < 2 ^ 31 := by omega
  rw [hid, hdir, htt, Fs.marshal_writes (Writes.strTitleDir hpl (by decide) rfl rfl) _] at h12
  injection h12 with hbuf _
  injection hbuf with hbuf
  subst hbuf
  have hkk : ({ k with buffer := dirPayload path (createdDir path) } : Key) = dirKey path := by
    rw [hk']; rfl
  have h13' := h13.symm.trans (congrArg (fun k => Key.writeToFile k _) hkk)
  have hw : (dirKey path).Writable := by
    exact Key.at_writable (a := false) (b := false) (by
      show 0 ≤ dirKeyLen path + (dirNameLen path + 60); omega) (by decide) (by decide) i2
  rw [Key.writeToFile_eq hw] at h13'
  injection h13' with _ h13'
  rw [h13', h8'']
  rfl

theorem createdFile_good {path : Str} {ids : Nat} (hlim : dirPos path + 60 ≤ kStartBigFile) :
    (createdFile path ids).Good := by
  have hsz := tstringSizeof_pos path
  have hkl := (keyLenFor_ge path [] (b! "TFile") false false).1
  refine ⟨⟨rfl, rfl, rfl⟩, ?_, hlim⟩
  show 0 ≤ dirPos path + 60
  have : tstringSizeof [] = 1 := rfl
  unfold dirPos dirNameLen dirKeyLen; omega

end Verif
