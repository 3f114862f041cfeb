import Verif.Lemmas.Create
namespace Verif

theorem Fs.sum_ok {l : List Int} {acc v : Int} {f f' : FileW} (h : Fs.sum acc l f = (.ok v, f')) :
    v = acc + l.sum ∧ f' = f := by
  induction l generalizing acc with
  | nil =>
    obtain ⟨rfl, rfl⟩ := Fs.ok_pure.1 h
    simp
  | cons x l ih =>
    unfold Fs.sum at h
    obtain ⟨_, _, h0, h1⟩ := Fs.ok_bind.1 h
    obtain ⟨-, rfl, rfl⟩ := Fs.ok_i32.1 h0
    obtain ⟨rfl, rfl⟩ := ih h1
    simp only [List.sum_cons, and_true]
    omega

theorem sum_nonneg {l : List Int} (h : ∀ x ∈ l, 0 ≤ x) : 0 ≤ l.sum := by
  induction l with
  | nil => simp
  | cons x l ih =>
    have h1 := h x (by simp)
    have h2 := ih fun y hy => h y (by simp [hy])
    simp only [List.sum_cons]; omega

/-! ### The list of keys -/

/-- Bytes declared for the list of keys. -/
def keysLen (d : Dir) : Int := 4 + (d.keys.map Key.keyLen).sum

/-- The list of keys as stored. -/
def keysBytes (d : Dir) : List Byte :=
  encI 4 d.keys.length ++ d.keys.flatMap (fun k => k.enc packedNow)

theorem keys_writes {d : Dir} (h : ∀ k ∈ d.keys, k.Writable) :
    Writes (Wr.counted do
      Wr.i32 d.keys.length
      Wr.each (fun k => Wr.drop k.marshal) d.keys) (keysBytes d) (keysBytes d).length := by
  apply Writes.counted
  refine Writes.bind (Writes.bytes _) ?_
  exact Writes.each fun k hk => (h k hk).writes.drop

/-- The key of the list of keys. -/
def keysKey (f : FileW) (d : Dir) : Key :=
  Key.at d.name d.title (b! "TDirectory") 1 (keysLen d)
    (keyLenFor d.name d.title (b! "TDirectory") false false) f.header.end_ f.dir.seekDir false
    (keysBytes d)

theorem keyLenFor_notBig {f : FileW} (h1 : f.dir.isBig = false) (h2 : f.isBig = false)
    (n t c : Str) : f.keyLenFor n t c = keyLenFor n t c false false := by
  unfold FileW.keyLenFor; rw [h1, h2]

/-- The end of the file grows by a record of `len` bytes. -/
def FileW.grown (f : FileW) (n t c : Str) (len : Int) : FileW :=
  f.ended (f.header.end_ + (Verif.keyLenFor n t c false false + len))

theorem saveKeys_ok {f f' : FileW} {d d' : Dir} (hf : f.Good) (hk : ∀ k ∈ d.keys, k.Writable)
    (h : saveKeys d f = (.ok d', f')) :
    f' = { f.grown d.name d.title (b! "TDirectory") (keysLen d) with trace := f'.trace } ∧
    f.header.end_ ≤ f'.header.end_ ∧
    d' = { d with seekKeys := f.header.end_
                  nBytesKeys := keyLenFor d.name d.title (b! "TDirectory") false false + keysLen d } ∧
    (f'.header.end_ ≤ kStartBigFile →
      f'.trace = f.trace ++ (keysKey f d).twoWrites ((keysKey f d).enc packedNow)) := by
  have hnn : 0 ≤ (d.keys.map Key.keyLen).sum := by
    apply sum_nonneg
    intro x hx
    obtain ⟨k, hk', rfl⟩ := List.mem_map.1 hx
    exact (hk k hk').keyLen
  have hkl := keyLenFor_ge d.name d.title (b! "TDirectory") false false
  unfold saveKeys at h
  rw [Fs.bind_of_ok (Fs.ok_get.2 ⟨rfl, rfl⟩), hf.notBig] at h
  obtain ⟨n, f1, h0, h1⟩ := Fs.ok_bind.1 h
  obtain ⟨hn, hf1⟩ := Fs.sum_ok h0
  have hn' : n = keysLen d := hn
  subst hn'
  rw [hf1] at h1
  obtain ⟨k, f2, h2, h3⟩ := Fs.ok_bind.1 h1
  obtain ⟨i1, i2, hf2, hkk⟩ := Key.new_ok hf.span h2
  have hpos : 0 < keysLen d := by unfold keysLen; omega
  rw [if_pos hpos, keyLenFor_notBig hf.dirBig hf.notBig] at hf2 hkk
  rw [keyLenFor_notBig hf.dirBig hf.notBig] at i1 i2
  have hf2' : f2 = f.grown d.name d.title (b! "TDirectory") (keysLen d) := hf2
  have he2 : f2.header.end_ =
    f.header.end_ + (keyLenFor d.name d.title (b! "TDirectory") false false + keysLen d) := by
    rw [hf2]; rfl
  rw [Fs.bind_of_ok (Fs.marshal_writes (keys_writes hk) _)] at h3
  obtain ⟨_, f3, h4, h5⟩ := Fs.ok_bind.1 h3
  obtain ⟨hd', rfl⟩ := Fs.ok_pure.1 h5
  have hs := Key.writeToFile_same h4
  have he3 : f3.header.end_ = f2.header.end_ := by rw [hs]
  refine ⟨?_, by omega, ?_, ?_⟩
  · rw [hs, hf2']
  · rw [← hd', hkk]; rfl
  · intro hlim
    have hb : f2.isBig = false := by
      simp only [FileW.isBig, FileHeader.isBig, decide_eq_false_iff_not]; omega
    have e : ({ k with buffer := keysBytes d } : Key) = keysKey f d := by
      rw [hkk, hb]; rfl
    rw [e] at h4
    obtain ⟨-, h6⟩ := Key.at_written hf.lo hf.hi i1 h4
    rw [h6, hf2]
    rfl

theorem writeDirHeader_eq {d : Dir} (f : FileW) (hc : d.ctime = dateNow)
    (hp : 0 ≤ d.seekDir + d.nBytesName) :
    writeDirHeader d f = (.ok { d with mtime := dateNow }, { f with
      trace := f.trace ++ [⟨(d.seekDir + d.nBytesName).toNat,
        ({ d with mtime := dateNow } : Dir).enc packedNow packedNow⟩] }) := by
  unfold writeDirHeader
  have := Dir.writes (d := { d with mtime := dateNow }) (c := packedNow) (m := packedNow)
    (by rw [show ({ d with mtime := dateNow } : Dir).ctime = dateNow from hc]; exact datetimeToU32_now)
    datetimeToU32_now
  rw [Fs.bind_of_ok (Fs.marshal_writes this f),
    Fs.bind_of_ok (Fs.ok_writeAt.2 ⟨hp, rfl⟩ : Fs.writeAt _ _ _ = (.ok (), _))]
  rfl

/-! ### Streamer records -/

theorem addDeps_same {env : Env} {ds : List (Str × Int)} {f f' : FileW} {u : Unit}
    (h : addDeps env ds f = (.ok u, f')) : f.SameBut f' := by
  induction ds generalizing f with
  | nil =>
    obtain ⟨-, rfl⟩ := Fs.ok_pure.1 h
    exact .refl _
  | cons d ds ih =>
    unfold addDeps at h
    split at h
    · exact ih h
    · obtain ⟨si, f1, h0, h1⟩ := Fs.ok_bind.1 h
      obtain ⟨m, -, rfl⟩ := Fs.dictionary_ok h0
      rw [Fs.bind_of_ok (addStreamerInfo_eq _ _)] at h1
      exact FileW.SameBut.trans (FileW.sameBut f _ _) (ih h1)

theorem findDeepStreamer_same {env : Env} {f f' : FileW} {u : Unit}
    (h : findDeepStreamer env f = (.ok u, f')) : f.SameBut f' := by
  unfold findDeepStreamer at h
  rw [Fs.bind_of_ok (Fs.ok_get.2 ⟨rfl, rfl⟩)] at h
  obtain ⟨⟨ds, n⟩, _, h0, h1⟩ := Fs.ok_bind.1 h
  obtain ⟨-, rfl⟩ := Fs.ok_lift.1 h0
  obtain ⟨_, _, h2, h3⟩ := Fs.ok_bind.1 h1
  cases Fs.ok_modify.1 h2
  exact FileW.SameBut.trans (FileW.sameBut f f.sinfos n) (addDeps_same h3)

/-- The name under which the streamer records are stored. -/
abbrev infoName : Str := b! "StreamerInfo"

/-- The key of the streamer records. -/
def infoKey (f : FileW) (buf : List Byte) : Key :=
  Key.at infoName listTitle (b! "TList") 1 (asI 4 buf.length)
    (keyLenFor infoName listTitle (b! "TList") false false) f.header.end_ f.dir.seekDir false buf

/-- Length of the key of the streamer records. -/
abbrev infoKeyLen : Int := keyLenFor infoName listTitle (b! "TList") false false

theorem writeStreamerInfo_ok {env : Env} {f f' : FileW} {u : Unit} (hf : f.Good)
    (h : writeStreamerInfo env f = (.ok u, f')) :
    ∃ f1 buf n, findDeepStreamer env f = (.ok (), f1) ∧ f.SameBut f1 ∧ f.header.seekInfo = 0 ∧
      (∃ w, TList.marshal TObject.default none (placedInfos env 0 f1.sinfos)
        (WBuffer.new infoKeyLen.toNat) = .ok (n, w) ∧ w.p = buf) ∧
      0 ≤ infoKeyLen + asI 4 buf.length ∧
      f' = { f1.ended (f.header.end_ + (infoKeyLen + asI 4 buf.length)) with
        header := { f.header with end_ := f.header.end_ + (infoKeyLen + asI 4 buf.length)
                                  seekInfo := f.header.end_
                                  nBytesInfo := infoKeyLen + asI 4 buf.length }
        trace := f.trace ++ (infoKey f buf).twoWrites ((infoKey f buf).enc packedNow) } := by
  unfold writeStreamerInfo at h
  obtain ⟨_, f1, h0, h1⟩ := Fs.ok_bind.1 h
  have hs := findDeepStreamer_same h0
  have hs' : f1 = { f with sinfos := f1.sinfos, ids := f1.ids } := hs
  have hd : f1.dir = f.dir := by rw [hs']
  have hh : f1.header = f.header := by rw [hs']
  have ht : f1.trace = f.trace := by rw [hs']
  have hspan : f1.OneSpan := by rw [hs']; exact hf.span
  have hkl : ∀ n t c, f1.keyLenFor n t c = keyLenFor n t c false false := fun n t c => by
    rw [hs']; exact keyLenFor_notBig hf.dirBig hf.notBig n t c
  have hb : f1.isBig = false := by rw [hs']; exact hf.notBig
  rw [Fs.bind_of_ok (Fs.ok_get.2 ⟨rfl, rfl⟩)] at h1
  split at h1
  · cases h1
  next hsi =>
  have hsi' : f.header.seekInfo = 0 := by rw [hh] at hsi; omega
  obtain ⟨k, f2, h2, h3⟩ := Fs.ok_bind.1 h1
  obtain ⟨-, -, hf2, hk⟩ := Key.new_ok hspan h2
  rw [if_neg (by decide)] at hf2
  subst hf2
  have hkl2 : k.keyLen = infoKeyLen := by rw [hk]; exact hkl _ _ _
  rw [hkl2] at h3
  obtain ⟨buf, f3, h4, h5⟩ := Fs.ok_bind.1 h3
  obtain ⟨⟨n, w, hm, hw⟩, rfl⟩ := Fs.ok_marshal.1 h4
  obtain ⟨k2, f4, h6, h7⟩ := Fs.ok_bind.1 h5
  obtain ⟨i1, i2, rfl, hk2⟩ := Key.newFromBuffer_ok hspan (by rw [hh]; exact hf.comp) h6
  rw [hkl] at i1
  rw [hkl, hb, hd, hh] at hk2
  have hk2' : k2 = infoKey f buf := hk2
  rw [Fs.bind_of_ok (Fs.ok_modify.2 rfl : Fs.modify _ _ = (.ok (), _)), hk2'] at h7
  obtain ⟨hwr, h8⟩ := Key.at_written hf.lo hf.hi i1 h7
  refine ⟨f2, buf, n, h0, hs, hsi', ⟨w, hm, hw⟩, hwr.nBytes, ?_⟩
  rw [h8, hkl]
  simp only [FileW.ended, hh, ht]
  rfl

/-! ### Free segments -/

/-- The key of the free segments. -/
def freeKey (f : FileW) : Key :=
  Key.at f.dir.name f.dir.title (b! "TFile") 1 10
    (keyLenFor f.dir.name f.dir.title (b! "TFile") false false) f.header.end_ f.dir.seekDir false
    (FreeSegments.enc ⟨f.header.end_ +
      (keyLenFor f.dir.name f.dir.title (b! "TFile") false false + 10), kStartBigFile⟩)

/-- The file after the free segments have been stored. -/
def afterFree (f : FileW) : FileW :=
  { f.grown f.dir.name f.dir.title (b! "TFile") 10 with
    header := { f.header with
      end_ := f.header.end_ + (keyLenFor f.dir.name f.dir.title (b! "TFile") false false + 10)
      nBytesFree := keyLenFor f.dir.name f.dir.title (b! "TFile") false false + 10
      seekFree := f.header.end_ }
    trace := f.trace ++ (freeKey f).twoWrites ((freeKey f).enc packedNow) }

theorem writeFreeSegments_ok {f f' : FileW} {u : Unit} (hf : f.Good)
    (h : writeFreeSegments f = (.ok u, f')) :
    f.header.seekFree = 0 ∧ f.header.end_ ≤ f'.header.end_ ∧
      (f'.header.end_ ≤ kStartBigFile → f' = afterFree f) := by
  have hkl := keyLenFor_ge f.dir.name f.dir.title (b! "TFile") false false
  unfold writeFreeSegments at h
  rw [Fs.bind_of_ok (Fs.ok_get.2 ⟨rfl, rfl⟩)] at h
  split at h
  · cases h
  next hsf =>
  obtain ⟨n, f1, h0, h1⟩ := Fs.ok_bind.1 h
  obtain ⟨hn, hf1⟩ := Fs.sum_ok h0
  have hn' : n = 10 := by
    rw [hn, show f.spans = _ from hf.span]; rfl
  subst hn'
  rw [hf1] at h1
  obtain ⟨k, f2, h2, h3⟩ := Fs.ok_bind.1 h1
  obtain ⟨i1, i2, hf2, hk⟩ := Key.new_ok hf.span h2
  rw [if_pos (by decide), keyLenFor_notBig hf.dirBig hf.notBig] at hf2 hk
  rw [keyLenFor_notBig hf.dirBig hf.notBig] at i1 i2
  have he2 : f2.header.end_ =
    f.header.end_ + (keyLenFor f.dir.name f.dir.title (b! "TFile") false false + 10) := by
    rw [hf2]; rfl
  split at h3
  · cases h3
  rw [Fs.bind_of_ok (Fs.ok_get.2 ⟨rfl, rfl⟩)] at h3
  split at h3
  · cases h3
  obtain ⟨buf, f3, h4, h5⟩ := Fs.ok_bind.1 h3
  have hsp : f2.spans = [⟨f.header.end_ +
    (keyLenFor f.dir.name f.dir.title (b! "TFile") false false + 10), kStartBigFile⟩] := by
    rw [hf2]; rfl
  rw [hsp, Fs.marshal_writes (Writes.counted (Writes.each (enc := FreeSegments.enc)
    fun s _ => (FreeSegments.writes s).drop))] at h4
  injection h4 with h4 h4'
  injection h4 with h4
  subst h4'
  simp only [List.flatMap_cons, List.flatMap_nil, List.append_nil] at h4
  split at h5
  · cases h5
  rw [Fs.bind_of_ok (Fs.ok_modify.2 rfl : Fs.modify _ _ = (.ok (), _))] at h5
  have hs := Key.writeToFile_same h5
  have he3 : f'.header.end_ = f2.header.end_ := by rw [hs]
  refine ⟨by omega, by omega, fun hlim => ?_⟩
  have hb : f2.isBig = false := by
    simp only [FileW.isBig, FileHeader.isBig, decide_eq_false_iff_not]; omega
  have e : ({ k with buffer := buf } : Key) = freeKey f := by
    rw [hk, hb, ← h4]; rfl
  rw [e] at h5
  obtain ⟨-, h6⟩ := Key.at_written hf.lo hf.hi i1 h5
  rw [h6, hf2, hk]
  rfl

end Verif

namespace Verif

/-! ### All of `close` -/

/-- The directory as saved. -/
def closedDir (f : FileW) : Dir :=
  { f.dir with
    seekKeys := f.header.end_
    nBytesKeys := keyLenFor f.dir.name f.dir.title (b! "TDirectory") false false + keysLen f.dir
    mtime := dateNow }

/-- The directory record written by `close`. -/
def dirWrite (f : FileW) : DiskWrite :=
  ⟨(f.dir.seekDir + f.dir.nBytesName).toNat, (closedDir f).enc packedNow packedNow⟩

/-- After the directory has been saved. -/
def closing1 (f : FileW) : FileW :=
  { f.grown f.dir.name f.dir.title (b! "TDirectory") (keysLen f.dir) with
    dir := closedDir f
    trace := f.trace ++ (keysKey f f.dir).twoWrites ((keysKey f f.dir).enc packedNow) ++ [dirWrite f] }

/-- After the streamer records have been stored. -/
def closing2 (f : FileW) (s : List StreamerInfo) (i : Nat) (buf : List Byte) : FileW :=
  { (closing1 f).ended ((closing1 f).header.end_ + (infoKeyLen + asI 4 buf.length)) with
    sinfos := s
    ids := i
    header := { (closing1 f).header with
      end_ := (closing1 f).header.end_ + (infoKeyLen + asI 4 buf.length)
      seekInfo := (closing1 f).header.end_
      nBytesInfo := infoKeyLen + asI 4 buf.length }
    trace := (closing1 f).trace ++
      (infoKey (closing1 f) buf).twoWrites ((infoKey (closing1 f) buf).enc packedNow) }

/-- After the free segments have been stored. -/
def closing3 (f : FileW) (s : List StreamerInfo) (i : Nat) (buf : List Byte) : FileW :=
  afterFree (closing2 f s i buf)

/-- The closed file. -/
def closedFile (f : FileW) (s : List StreamerInfo) (i : Nat) (buf : List Byte) : FileW :=
  { closing3 f s i buf with
    header := (closing3 f s i buf).header.oneFree
    trace := (closing3 f s i buf).trace ++
      [⟨0, List.replicate 100 0⟩, ⟨0, (closing3 f s i buf).header.oneFree.enc⟩] }

/-- What `close` needs to know about the file. -/
structure FileW.Closable (f : FileW) : Prop extends f.Good where
  lo100 : 100 ≤ f.header.end_
  keys : ∀ k ∈ f.dir.keys, k.Writable
  begin_ : f.header.begin_ = 100
  range : f.header.InRange
  ctime : f.dir.ctime = dateNow
  pos : 0 ≤ f.dir.seekDir + f.dir.nBytesName

theorem keysLen_ge {d : Dir} (h : ∀ k ∈ d.keys, k.Writable) : 4 ≤ keysLen d := by
  have : 0 ≤ (d.keys.map Key.keyLen).sum := by
    apply sum_nonneg
    intro x hx
    obtain ⟨k, hk', rfl⟩ := List.mem_map.1 hx
    exact (h k hk').keyLen
  unfold keysLen; omega

theorem writeStreamerInfo_mono {env : Env} {f f' : FileW} {u : Unit} (hs : f.OneSpan)
    (hc : f.header.compression = 1) (h : writeStreamerInfo env f = (.ok u, f')) :
    f.header.end_ ≤ f'.header.end_ ∧ f'.OneSpan := by
  unfold writeStreamerInfo at h
  obtain ⟨_, f1, h0, h1⟩ := Fs.ok_bind.1 h
  have hs' : f1 = { f with sinfos := f1.sinfos, ids := f1.ids } := findDeepStreamer_same h0
  have hh : f1.header = f.header := by rw [hs']
  have hspan : f1.OneSpan := by rw [hs']; exact hs
  rw [Fs.bind_of_ok (Fs.ok_get.2 ⟨rfl, rfl⟩)] at h1
  split at h1
  · cases h1
  obtain ⟨k, f2, h2, h3⟩ := Fs.ok_bind.1 h1
  obtain ⟨-, -, hf2, hk⟩ := Key.new_ok hspan h2
  rw [if_neg (by decide)] at hf2
  subst hf2
  obtain ⟨buf, f3, h4, h5⟩ := Fs.ok_bind.1 h3
  obtain ⟨-, rfl⟩ := Fs.ok_marshal.1 h4
  obtain ⟨k2, f4, h6, h7⟩ := Fs.ok_bind.1 h5
  obtain ⟨i1, i2, rfl, hk2⟩ := Key.newFromBuffer_ok hspan (by rw [hh]; exact hc) h6
  rw [Fs.bind_of_ok (Fs.ok_modify.2 rfl : Fs.modify _ _ = (.ok (), _))] at h7
  have h8 := Key.writeToFile_same h7
  have hnn : 0 ≤ k2.nBytes := by
    rcases Int.lt_or_le k2.nBytes 0 with hn | hn
    · rw [Key.writeToFile_neg hn (by rw [hk2]; rfl)] at h7
      cases h7
    · exact hn
  rw [hk2] at hnn
  have hnn' : 0 ≤ f2.keyLenFor infoName listTitle (b! "TList") + asI 4 buf.length := hnn
  rw [h8]
  refine ⟨?_, rfl⟩
  show f.header.end_ ≤ f2.header.end_ + (f2.keyLenFor infoName listTitle (b! "TList") + asI 4 buf.length)
  rw [hh]; omega

theorem writeFreeSegments_mono {f f' : FileW} {u : Unit} (hs : f.OneSpan)
    (h : writeFreeSegments f = (.ok u, f')) : f.header.end_ ≤ f'.header.end_ := by
  unfold writeFreeSegments at h
  rw [Fs.bind_of_ok (Fs.ok_get.2 ⟨rfl, rfl⟩)] at h
  split at h
  · cases h
  obtain ⟨n, f1, h0, h1⟩ := Fs.ok_bind.1 h
  obtain ⟨hn, hf1⟩ := Fs.sum_ok h0
  have hn' : n = 10 := by
    rw [hn, show f.spans = _ from hs]; rfl
  subst hn'
  rw [hf1] at h1
  obtain ⟨k, f2, h2, h3⟩ := Fs.ok_bind.1 h1
  obtain ⟨i1, i2, hf2, hk⟩ := Key.new_ok hs h2
  rw [if_pos (by decide)] at hf2 hk
  split at h3
  · cases h3
  rw [Fs.bind_of_ok (Fs.ok_get.2 ⟨rfl, rfl⟩)] at h3
  split at h3
  · cases h3
  obtain ⟨buf, f3, h4, h5⟩ := Fs.ok_bind.1 h3
  obtain ⟨-, rfl⟩ := Fs.ok_marshal.1 h4
  split at h5
  · cases h5
  rw [Fs.bind_of_ok (Fs.ok_modify.2 rfl : Fs.modify _ _ = (.ok (), _))] at h5
  rw [Key.writeToFile_same h5]
  have hkl := (keyLenFor_ge f.dir.name f.dir.title (b! "TFile") f.dir.isBig f.isBig).1
  show f.header.end_ ≤ f2.header.end_
  rw [hf2]
  show f.header.end_ ≤ f.header.end_ + (f.keyLenFor _ _ _ + 10)
  unfold FileW.keyLenFor
  omega

theorem close_ok {env : Env} {f f' : FileW} {u : Unit} (hf : f.Closable)
    (h : closeFile env f = (.ok u, f')) (hlim : f'.header.end_ ≤ kStartBigFile) :
    ∃ s i buf n w, f' = closedFile f s i buf ∧
      findDeepStreamer env (closing1 f) = (.ok (), { closing1 f with sinfos := s, ids := i }) ∧
      TList.marshal TObject.default none (placedInfos env 0 s) (WBuffer.new infoKeyLen.toNat) =
        .ok (n, w) ∧ w.p = buf ∧ 0 ≤ infoKeyLen + asI 4 buf.length ∧
      f.header.end_ ≤ (closing1 f).header.end_ ∧
      (closing1 f).header.end_ ≤ (closing2 f s i buf).header.end_ ∧
      (closing2 f s i buf).header.end_ ≤ f'.header.end_ ∧
      f.header.seekInfo = 0 ∧ f.header.seekFree = 0 ∧
      f'.header.InRange ∧ f'.header.wide = false := by
  have hkl1 := (keyLenFor_ge f.dir.name f.dir.title (b! "TDirectory") false false).1
  have hkl2 := (keyLenFor_ge f.dir.name f.dir.title (b! "TFile") false false).1
  have hkn := keysLen_ge hf.keys
  unfold closeFile at h
  rw [Fs.bind_of_ok (Fs.ok_get.2 ⟨rfl, rfl⟩)] at h
  obtain ⟨d1, f1, h0, h1⟩ := Fs.ok_bind.1 h
  obtain ⟨a1, a2, a3, a4⟩ := saveKeys_ok hf.toGood hf.keys h0
  have hd1 : d1.ctime = dateNow := by rw [a3]; exact hf.ctime
  have hp1 : d1.seekDir + d1.nBytesName = f.dir.seekDir + f.dir.nBytesName := by rw [a3]
  rw [Fs.bind_of_ok (writeDirHeader_eq f1 hd1 (by rw [hp1]; exact hf.pos))] at h1
  rw [Fs.bind_of_ok (Fs.ok_modify.2 rfl : Fs.modify _ _ = (.ok (), _))] at h1
  obtain ⟨_, f2, h2, h3⟩ := Fs.ok_bind.1 h1
  obtain ⟨_, f3, h4, h5⟩ := Fs.ok_bind.1 h3
  have e5 := writeHeader_end h5
  -- the ends
  obtain ⟨m1, m1'⟩ := writeStreamerInfo_mono (by
    rw [a1]; exact FileW.ended_oneSpan _ _) (by rw [a1]; exact hf.comp) h2
  have m2 := writeFreeSegments_mono m1' h4
  have m1 : f1.header.end_ ≤ f2.header.end_ := m1
  have l1 : f1.header.end_ ≤ kStartBigFile := by omega
  have e1 : ({ f1 with dir := { d1 with mtime := dateNow }
                       trace := f1.trace ++ [⟨(d1.seekDir + d1.nBytesName).toNat,
                        ({ d1 with mtime := dateNow } : Dir).enc packedNow packedNow⟩] } : FileW) =
      closing1 f := by
    rw [a4 l1, a3, a1]
    rfl
  have hend1 : (closing1 f).header.end_ = f1.header.end_ := by rw [a1]; rfl
  have g1 : (closing1 f).Good := by
    refine ⟨⟨rfl, hf.comp, hf.dirv⟩, ?_, ?_⟩
    · rw [hend1]; have := hf.lo; omega
    · rw [hend1]; exact l1
  have h2' := (congrArg (writeStreamerInfo env) e1).symm.trans h2
  obtain ⟨g, buf, n, b1, b2, b3, ⟨w, b4, b5⟩, b6, b7⟩ := writeStreamerInfo_ok g1 h2'
  have b2' : g = { closing1 f with sinfos := g.sinfos, ids := g.ids } := b2
  have hf2 : f2 = closing2 f g.sinfos g.ids buf := by
    rw [b7]
    have : g.ended ((closing1 f).header.end_ + (infoKeyLen + asI 4 buf.length)) =
      { (closing1 f).ended ((closing1 f).header.end_ + (infoKeyLen + asI 4 buf.length)) with
        sinfos := g.sinfos, ids := g.ids } := by
      rw [b2']; rfl
    rw [this]; rfl
  have hend2 : f2.header.end_ = (closing1 f).header.end_ + (infoKeyLen + asI 4 buf.length) := by
    rw [hf2]; rfl
  have g2 : f2.Good := by
    refine ⟨⟨m1', ?_, ?_⟩, ?_, by omega⟩
    · rw [hf2]; exact hf.comp
    · rw [hf2]; exact hf.dirv
    · have := hf.lo; omega
  obtain ⟨c1, c2, c3⟩ := writeFreeSegments_ok g2 h4
  have hf3 := c3 (by omega)
  have hf3' : f3 = closing3 f g.sinfos g.ids buf := by rw [hf3, hf2]; rfl
  -- the header
  have hend3 : f3.header.end_ = f2.header.end_ +
      (keyLenFor f.dir.name f.dir.title (b! "TFile") false false + 10) := by
    rw [hf3, hf2]; rfl
  have k1 : f3.header.seekInfo = f1.header.end_ := by rw [hf3', ← hend1]; rfl
  have k2 : f3.header.seekFree = f2.header.end_ := by rw [hf3, hf2]; rfl
  have hl := hf.lo100
  have hbg := hlim
  unfold kStartBigFile at hbg
  have hw : f3.header.wide = false := by
    have w1 : decide (kStartBigFile < f3.header.end_) = false := decide_eq_false (by omega)
    have w2 : decide (kStartBigFile < f3.header.seekFree) = false := decide_eq_false (by omega)
    have w3 : decide (kStartBigFile < f3.header.seekInfo) = false := decide_eq_false (by omega)
    simp only [FileHeader.wide, FileHeader.isBig, w1, w2, w3, Bool.or_self]
  have hr : f3.header.oneFree.InRange := by
    obtain ⟨r1, r2, r3, r4, r5, r6, r7, r8, r9, r10, r11, r12, r13, r14, r15, r16, r17⟩ := hf.range
    have q1 : f3.header.version = f.header.version := by rw [hf3']; rfl
    have q2 : f3.header.nBytesName = f.header.nBytesName := by rw [hf3']; rfl
    have q3 : f3.header.units = f.header.units := by rw [hf3']; rfl
    have q4 : f3.header.compression = f.header.compression := by rw [hf3']; rfl
    have q5 : f3.header.uuid = f.header.uuid := by rw [hf3']; rfl
    have q6 : f3.header.begin_ = f.header.begin_ := by rw [hf3']; rfl
    have q7 : f3.header.nBytesInfo = infoKeyLen + asI 4 buf.length := by rw [hf3']; rfl
    have q8 : f3.header.nBytesFree = keyLenFor f.dir.name f.dir.title (b! "TFile") false false + 10 := by
      rw [hf3']; rfl
    have q9 : f3.header.oneFree.wide = false := hw
    refine ⟨?_, ?_, ?_, ?_, ?_, ?_, (by decide : InI 4 1), ?_, ?_, ?_, ?_, ?_, ?_, ?_, ?_, ?_, ?_⟩
    · show 0 ≤ f3.header.version
      rw [q1]; exact r1
    · show f3.header.version < 1000000
      rw [q1]; exact r2
    · show InI 4 f3.header.begin_
      rw [q6]; exact r3
    · show InI 8 f3.header.end_
      constructor <;> omega
    · show InI 8 f3.header.seekFree
      rw [k2]; constructor <;> omega
    · show InI 4 f3.header.nBytesFree
      rw [q8]; constructor <;> omega
    · show InI 4 f3.header.nBytesName
      rw [q2]; exact r8
    · show f3.header.units < 256
      rw [q3]; exact r9
    · show InI 4 f3.header.compression
      rw [q4]; exact r10
    · show InI 8 f3.header.seekInfo
      rw [k1]; constructor <;> omega
    · show InI 4 f3.header.nBytesInfo
      rw [q7]; constructor <;> omega
    · show f3.header.uuid.length = 16
      rw [q5]; exact r13
    · rw [q9]; simp
    · show 0 ≤ f3.header.end_
      omega
    · show 0 ≤ f3.header.seekFree
      omega
    · show 0 ≤ f3.header.seekInfo
      omega
  rw [writeHeader_eq (by rw [hf3']; rfl) (by rw [hf3']; exact hf.begin_) hr hw] at h5
  injection h5 with _ h5
  have hfin : f' = closedFile f g.sinfos g.ids buf := by
    rw [← h5, hf3']; rfl
  refine ⟨g.sinfos, g.ids, buf, n, w, hfin, ?_, b4, b5, b6, by omega, ?_, ?_, ?_, ?_, ?_, ?_⟩
  · rw [b1]; congr 1
  · rw [← hf2]; omega
  · rw [← hf2]; omega
  · exact b3
  · rw [hf2] at c1; exact c1
  · rw [← h5]; exact hr
  · rw [← h5]; exact hw

end Verif
