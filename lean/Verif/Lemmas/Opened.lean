import Verif.Lemmas.Reopen
import Verif.Lemmas.Refs
import Verif.Lemmas.KeyLoad
namespace Verif

theorem Key.at_inRange {n t c : Str} {cy len seek pdir : Int} {buf : List Byte} (hl : 0 ≤ len)
    (hs : 0 ≤ seek) (he : seek + (kl n t c + len) ≤ kStartBigFile) (hc : InI 2 cy) (hp : 0 ≤ pdir)
    (hp' : pdir ≤ kStartBigFile) (hk : kl n t c < 32768) (un : utf8 n = true) (ut : utf8 t = true)
    (uc : utf8 c = true) : (Key.at n t c cy len (kl n t c) seek pdir false buf).InRange := by
  obtain ⟨g0, g1, g2, g3⟩ := keyLenFor_ge n t c false false
  have g0 : 26 ≤ kl n t c := g0
  have g1 : (n.length : Int) < kl n t c := g1
  have g2 : (t.length : Int) < kl n t c := g2
  have g3 : (c.length : Int) < kl n t c := g3
  have e : (Key.at n t c cy len (kl n t c) seek pdir false buf).rvers = 4 := rfl
  have e2 : InSeek (1000 < (4 : Int)) = InI 4 := rfl
  refine ⟨?_, ?_, ?_, ?_, ?_, ?_, hc, ?_, ?_, ⟨by show c.length < _; omega, uc⟩,
    ⟨by show n.length < _; omega, un⟩, ⟨by show t.length < _; omega, ut⟩⟩
  · show 0 ≤ kl n t c + len; omega
  · exact inI4_of_small (by show 0 ≤ kl n t c + len; omega) (by show kl n t c + len ≤ _; omega)
  · rw [e]; decide
  · intro h
    have : kStartBigFile < seek := h
    omega
  · exact inI4_of_small hl (by show len ≤ _; omega)
  · show InI 2 (kl n t c)
    constructor <;> omega
  · rw [e, e2]; exact inI4_of_small hs (by show seek ≤ _; omega)
  · rw [e, e2]; exact inI4_of_small hp hp'

theorem packedNow_lt : packedNow < 2 ^ 32 := by decide

theorem asU64_of {x : Int} (h0 : 0 ≤ x) (h : x ≤ kStartBigFile) : asU64 x = x.toNat := by
  obtain ⟨n, rfl⟩ := Int.eq_ofNat_of_zero_le h0
  unfold asU64
  rw [wrapI_ofNat]
  · omega
  · unfold kStartBigFile at h; omega

theorem Key.load_plain {dec : Decoders} {img : List Byte} {k : Key} {v : Nat} {bs : List Byte}
    (h1 : k.nBytes = k.keyLen + k.objLen) (h2 : k.objLen = bs.length) (h3 : 0 ≤ k.seekKey) (h4 : 0 ≤ k.keyLen)
    (h5 : k.seekKey < 2 ^ 63) (h6 : k.nBytes < 2 ^ 31)
    (h : Stored img (k.seekKey + k.keyLen).toNat bs) : (k.afterRead v).load dec img = .ok bs := by
  have hc : (k.afterRead v).isCompressed = false := by
    unfold Key.isCompressed
    have : (k.afterRead v).objLen = (k.afterRead v).nBytes - (k.afterRead v).keyLen := by
      show k.objLen = k.nBytes - k.keyLen
      omega
    simp [this]
  rw [Key.load_sane (k := k.afterRead v) ⟨h3, h5, h4, by show k.keyLen ≤ k.nBytes; omega, h6⟩, if_neg (by rw [hc]; simp)]
  exact readAt_stored (by show 0 ≤ k.seekKey + k.keyLen; omega) h2 h

section
variable {env : Env} {path : Str} {f f' : FileW} {s : List StreamerInfo} {i : Nat} {buf : List Byte}

theorem ClosedAs.ends (hi : Inv path f) (hc : ClosedAs env path f f' s i buf) :
    188 ≤ f.header.end_ ∧ f.header.end_ + 30 ≤ (closing1 f).header.end_ ∧
    (closing1 f).header.end_ + 26 ≤ (closing2 f s i buf).header.end_ ∧
    (closing2 f s i buf).header.end_ + 36 ≤ f'.header.end_ := by
  have hd := dirPos_ge path
  have hlo := hi.lo
  have e1 := hc.end1
  have e2 := hc.end2
  have e3 := hc.end3
  have kn := keysLen_ge hi.closable.keys
  have k1 : 26 ≤ kl path [] (b! "TDirectory") := (keyLenFor_ge _ _ _ false false).1
  have k2 : 26 ≤ infoKeyLen := (keyLenFor_ge _ _ _ false false).1
  have k3 : 26 ≤ kl path [] (b! "TFile") := (keyLenFor_ge _ _ _ false false).1
  omega

theorem ClosedAs.header (hi : Inv path f) (hc : ClosedAs env path f f' s i buf) :
    f'.header = { createdHeader path with
      end_ := f'.header.end_
      seekInfo := (closing1 f).header.end_
      nBytesInfo := infoKeyLen + buf.length
      seekFree := (closing2 f s i buf).header.end_
      nBytesFree := kl path [] (b! "TFile") + 10 } := by
  obtain ⟨n1, n2, -⟩ := hc.names hi
  have e0 : f'.header = { f.header with
      end_ := f'.header.end_
      seekInfo := (closing1 f).header.end_
      nBytesInfo := infoKeyLen + asI 4 buf.length
      seekFree := (closing2 f s i buf).header.end_
      nBytesFree := kl (closing2 f s i buf).dir.name (closing2 f s i buf).dir.title (b! "TFile") + 10
      nFree := 1 } := by rw [hc.file]; rfl
  rw [n1, n2, asI4_nat hc.short] at e0
  refine e0.trans ?_
  rw [hi.hdr]
  rfl

/-- What is read first. -/
theorem ClosedAs.open_header (hi : Inv path f) (hc : ClosedAs env path f f' s i buf) :
    ∃ data, readAt (image f'.trace) 0 (64 + 12) = .ok data ∧
      readWith FileHeader.unmarshal data = .ok f'.header := by
  have hl := FileHeader.enc_length hc.range
  rw [hc.narrow] at hl
  have he := hc.ends hi
  have hlen := hc.image_length hi
  obtain ⟨rest, h, -⟩ := readAt_more (pos := 0) (len := 64 + 12) (Int.le_refl _)
    (by rw [hl]; decide) (by omega) hc.stored_header
  exact ⟨_, h, readWith_reads (FileHeader.reads hc.range) rfl⟩

theorem dirKeyLen_lt {path : Str} (hp : dirKeyLen path + dirNameLen path ≤ 1000) :
    26 ≤ dirKeyLen path ∧ 0 < dirNameLen path ∧ path.length < 1000 ∧
    kl path [] (b! "TDirectory") < 32768 ∧ kl path [] (b! "TFile") < 32768 := by
  have h1 := tstringSizeof_pos path
  have h3 : tstringSizeof [] = 1 := rfl
  have h2 : 0 < dirNameLen path := by unfold dirNameLen; omega
  obtain ⟨h4, h5, -⟩ := keyLenFor_ge path [] (b! "TFile") false false
  have h4 : 26 ≤ dirKeyLen path := h4
  have h5 : (path.length : Int) < dirKeyLen path := h5
  have e1 : kl path [] (b! "TDirectory") = dirKeyLen path + 5 := by
    unfold kl dirKeyLen Verif.keyLenFor
    rw [show tstringSizeof (b! "TDirectory") = 11 from rfl, show tstringSizeof (b! "TFile") = 6 from rfl,
      if_neg (by decide), if_neg (by decide), if_neg (by decide)]
    omega
  have e2 : kl path [] (b! "TFile") = dirKeyLen path := rfl
  rw [e1, e2]
  exact ⟨h4, h2, by omega, by omega, by omega⟩

theorem ClosedAs.dir_inRange (hi : Inv path f) (hc : ClosedAs env path f f' s i buf)
    (hb : f'.header.end_ ≤ kStartBigFile) : (closedDir f).InRange := by
  have he := hc.ends hi
  have e1 := hc.end1
  obtain ⟨-, -, n3, n4, n5⟩ := hc.names hi
  have kn := keysLen_ge hi.closable.keys
  have k1 : 26 ≤ kl path [] (b! "TDirectory") := (keyLenFor_ge _ _ _ false false).1
  have hv : f.dir.rvers = 5 := by rw [hi.dir]; rfl
  have hp : f.dir.seekParent = 0 := by rw [hi.dir]; rfl
  have hbig : (closedDir f).isBig = false := hi.good.dirBig
  have hd := dirPos_ge path
  have hlo := hi.lo
  have hnb : f.dir.nBytesName = dirKeyLen path + dirNameLen path := by rw [hi.dir]; rfl
  have hdp : dirPos path = 100 + (dirKeyLen path + dirNameLen path) := rfl
  have e2 : InSeek false = InI 4 := rfl
  unfold Dir.InRange
  rw [hbig, e2]
  refine ⟨?_, ?_, ?_, ?_, ?_, ?_, ?_⟩
  · show InI 2 f.dir.rvers; rw [hv]; decide
  · show InI 4 (kl f.dir.name f.dir.title (b! "TDirectory") + keysLen f.dir)
    rw [n3, n4]
    exact inI4_of_small (by omega) (by omega)
  · show InI 4 f.dir.nBytesName
    exact inI4_of_small (by omega) (by omega)
  · show InI 4 f.dir.seekDir; rw [n5]; decide
  · show InI 4 f.dir.seekParent; rw [hp]; decide
  · show InI 4 f.header.end_
    exact inI4_of_small (by omega) (by omega)
  · show f.dir.uuid.length = 16
    rw [hi.dir]; rfl

theorem drop_append_length {α} (a b : List α) (n : Nat) (h : n = a.length) : (a ++ b).drop n = b := by
  subst h; simp

theorem Reads.names {c n t : Str} (hc : c.length < 2 ^ 31 ∧ utf8 c = true)
    (hn : n.length < 2 ^ 31 ∧ utf8 n = true) (ht : t.length < 2 ^ 31 ∧ utf8 t = true) :
    Reads (do
      let c ← Rd.string
      let n ← Rd.string
      let t ← Rd.string
      Pure.pure (c, n, t)) (encStr c ++ (encStr n ++ encStr t)) (c, n, t) := by
  refine Reads.bind (Reads.string (by omega) hc.2) ?_
  refine Reads.bind (Reads.string (by omega) hn.2) ?_
  refine (Reads.bind (b2 := []) (Reads.string (by omega) ht.2) ?_).congr (List.append_nil _)
  exact Reads.pure _

/-- The directory record as found, whatever its length. -/
theorem open_dir_of {img : List Byte} {h : FileHeader} {d : Dir} {path : Str} (v1 : h.begin_ = 100)
    (v2 : h.nBytesName = dirKeyLen path + dirNameLen path) (v3 : h.version = rversRoot)
    (hb : h.end_ ≤ kStartBigFile) (he : dirPos path + 60 ≤ h.end_) (hlen : h.end_ ≤ img.length)
    (hnb : d.nBytesName = dirKeyLen path + dirNameLen path)
    (hcl : (d.enc packedNow packedNow).length = 48) (hr : d.InRange) (hu : utf8 path = true)
    (hst : Stored img 100 ((dirKey path).enc packedNow ++ (encStr path ++ (encStr [] ++
      d.enc packedNow packedNow)))) :
    readDirInfo img h =
      if 1000 < dirKeyLen path + dirNameLen path then .error (.err .cantReadDirectoryInfo)
      else .ok { d.afterRead packedNow packedNow with className := b! "TFile", name := path } := by
  have hd := dirPos_ge path
  have hdp : dirPos path = 100 + (dirKeyLen path + dirNameLen path) := rfl
  have hkl : (((dirKey path).enc packedNow).length : Int) = dirKeyLen path :=
    (Key.at_enc_length path [] (b! "TFile") 1 (dirNameLen path + 60) 100 0
      (dirPayload path (createdDir path))).trans (Int.sub_zero _)
  have hk26 : 26 ≤ dirKeyLen path := (keyLenFor_ge path [] (b! "TFile") false false).1
  have hplen : (path.length : Int) < dirKeyLen path := (keyLenFor_ge path [] (b! "TFile") false false).2.1
  have hnl : ((encStr path ++ encStr []).length : Int) = dirNameLen path := by
    unfold dirNameLen
    rw [tstringSizeof_eq, tstringSizeof_eq, List.length_append, Int.natCast_add]
  have a1 : asU64 h.nBytesName = (dirKeyLen path + dirNameLen path).toNat := by
    rw [v2]; exact asU64_of (by omega) (by omega)
  have a2 : asU64 (dirRecordSize h.version) = 60 := by rw [v3]; rfl
  have a3 : asU64 100 = 100 := rfl
  have a4 : asU64 h.end_ = h.end_.toNat := asU64_of (by omega) hb
  have hb' : h.end_ ≤ 2000000000 := hb
  obtain ⟨rest, hrd, hl⟩ := readAt_more (pos := 100)
    (len := (((dirKeyLen path + dirNameLen path).toNat + 60 : Nat) : Int)) (by decide)
    (by simp only [List.length_append, hcl] at hnl ⊢; omega) (by omega) hst
  generalize hdata : ((dirKey path).enc packedNow ++ (encStr path ++ (encStr [] ++
      d.enc packedNow packedNow))) ++ rest = data at hrd hl
  have r1 : readWith Dir.unmarshal (data.drop h.nBytesName.toNat) =
      .ok (d.afterRead packedNow packedNow) := by
    refine readWith_reads (rest := rest)
      (Dir.reads hr packedNow_lt packedNow_lt) ?_
    rw [← hdata, v2]
    have : (dirKey path).enc packedNow ++ (encStr path ++ (encStr [] ++
      d.enc packedNow packedNow)) ++ rest = ((dirKey path).enc packedNow ++
      (encStr path ++ encStr [])) ++ (d.enc packedNow packedNow ++ rest) := by simp
    rw [this]
    exact drop_append_length _ _ _ (by rw [List.length_append]; omega)
  have r2 : readWith Rd.i16 (data.drop 4) = .ok 4 := by
    have hx : (dirKey path).enc packedNow = encI 4 (dirKey path).nBytes ++
        (encI 2 (dirKey path).rvers ++ ((dirKey path).enc packedNow).drop 6) := by
      unfold Key.enc
      generalize encI 4 (dirKey path).objLen ++ _ = z
      rw [← List.append_assoc (encI 4 _), ← List.append_assoc (encI 4 _),
        drop_append_length _ _ 6 (by simp [encI_length])]
    rw [← hdata, hx]
    refine readWith_reads (rest := ((dirKey path).enc packedNow).drop 6 ++ (encStr path ++ (encStr [] ++
      (d.enc packedNow packedNow ++ rest)))) (Reads.sint (k := 2) (v := 4) (by decide)
        (by decide)) ?_
    have : encI 4 (dirKey path).nBytes ++ (encI 2 (dirKey path).rvers ++
        ((dirKey path).enc packedNow).drop 6) ++ (encStr path ++ (encStr [] ++
      d.enc packedNow packedNow)) ++ rest = encI 4 (dirKey path).nBytes ++
      (encI 2 (dirKey path).rvers ++ (((dirKey path).enc packedNow).drop 6 ++ (encStr path ++ (encStr [] ++
      (d.enc packedNow packedNow ++ rest))))) := by simp
    rw [this]
    exact drop_append_length _ _ 4 (by simp [encI_length])
  have r3 : readWith (do
          let c ← Rd.string
          let n ← Rd.string
          let t ← Rd.string
          pure (c, n, t)) (data.drop 26) = .ok (b! "TFile", path, []) := by
    have hx : ∃ pre : List Byte, pre.length = 26 ∧ (dirKey path).enc packedNow = pre ++
        (encStr (b! "TFile") ++ (encStr path ++ encStr [])) := by
      have er : decide ((1000 : Int) < (dirKey path).rvers) = false := by
        show decide ((1000 : Int) < 4) = false
        decide
      unfold Key.enc
      rw [er]
      refine ⟨encI 4 (dirKey path).nBytes ++ (encI 2 (dirKey path).rvers ++ (encI 4 (dirKey path).objLen ++
        (beBytes 4 packedNow ++ (encI 2 (dirKey path).keyLen ++ (encI 2 (dirKey path).cycle ++
        (encSeek false (dirKey path).seekKey ++ encSeek false (dirKey path).seekPdir)))))), ?_, ?_⟩
      · simp [encI_length, beBytes_length, encSeek_length]
      · simp only [List.append_assoc]; rfl
    obtain ⟨pre, hpre, hx⟩ := hx
    rw [← hdata, hx]
    refine readWith_reads (rest := encStr path ++ (encStr [] ++
      (d.enc packedNow packedNow ++ rest))) (Reads.names (c := b! "TFile") (t := []) (by decide)
      ⟨by omega, hu⟩ (by decide)) ?_
    have : pre ++ (encStr (b! "TFile") ++ (encStr path ++ encStr [])) ++ (encStr path ++ (encStr [] ++
      d.enc packedNow packedNow)) ++ rest = pre ++ ((encStr (b! "TFile") ++
      (encStr path ++ encStr [])) ++ (encStr path ++ (encStr [] ++
      (d.enc packedNow packedNow ++ rest)))) := by simp
    rw [this]
    exact drop_append_length _ _ 26 hpre.symm
  unfold readDirInfo
  simp only [a1, a2, v1, a3, a4]
  rw [if_neg (by omega), if_neg (by omega), hrd]
  show (readWith Dir.unmarshal _ >>= _) = _
  rw [Res.bind_ok r1, Res.bind_ok r2]
  rw [if_neg (show ¬ (1000 : Int) < 4 by decide), if_neg (by omega), Res.bind_ok r3]
  have e : (d.afterRead packedNow packedNow).nBytesName =
    dirKeyLen path + dirNameLen path := hnb
  simp only [e]
  have h10 : ¬ dirKeyLen path + dirNameLen path < 10 := by omega
  by_cases h1000 : 1000 < dirKeyLen path + dirNameLen path
  · rw [if_pos (Or.inr h1000), if_pos h1000]
  · rw [if_neg (by omega), if_neg h1000]
    rfl

theorem ClosedAs.open_dir (hi : Inv path f) (hc : ClosedAs env path f f' s i buf)
    (hb : f'.header.end_ ≤ kStartBigFile) (hu : utf8 path = true) :
    readDirInfo (image f'.trace) f'.header =
      if 1000 < dirKeyLen path + dirNameLen path then .error (.err .cantReadDirectoryInfo)
      else .ok { (closedDir f).afterRead packedNow packedNow with className := b! "TFile", name := path } := by
  have he := hc.ends hi
  have hlo := hi.lo
  have hh := hc.header hi
  exact open_dir_of (by rw [hh]; rfl) (by rw [hh]; rfl) (by rw [hh]; rfl) hb (by omega)
    (hc.image_length hi) (by show f.dir.nBytesName = _; rw [hi.dir]; rfl) (dirWrite_eq hi).2
    (hc.dir_inRange hi hb) hu (hc.stored_dir hi)

end

/-! ### The records behind keys -/

/-- A key written with its data in a closed file, in the form the reader needs. -/
theorem Key.reopen {img : List Byte} {n t c : Str} {cy len seek pdir : Int} {bs : List Byte}
    (hlen : (bs.length : Int) ≤ len) (hs : 0 ≤ seek) (hcy : InI 2 cy) (hp : 0 ≤ pdir)
    (hp' : pdir ≤ kStartBigFile) (hk : kl n t c < 32768) (un : utf8 n = true) (ut : utf8 t = true)
    (uc : utf8 c = true) (he : seek + (kl n t c + len) ≤ kStartBigFile)
    (himg : seek + (kl n t c + len) ≤ img.length)
    (hst : ∀ w ∈ (Key.at n t c cy len (kl n t c) seek pdir false bs).twoWrites
      ((Key.at n t c cy len (kl n t c) seek pdir false bs).enc packedNow), Stored img w.pos w.data) :
    ∃ data, readAt img seek (kl n t c + len) = .ok data ∧
      readWith Key.unmarshal data =
        .ok ((Key.at n t c cy len (kl n t c) seek pdir false bs).afterRead packedNow) := by
  have h26 : 26 ≤ kl n t c := (keyLenFor_ge _ _ _ false false).1
  have hle := Key.at_enc_length n t c cy len seek pdir bs
  have hx := extra_nonneg c
  obtain ⟨rest, h, -⟩ := readAt_more (pos := seek) (len := kl n t c + len)
    (bs := (Key.at n t c cy len (kl n t c) seek pdir false bs).enc packedNow) hs
    (by omega) himg (hst _ (List.mem_cons_self ..))
  exact ⟨_, h, readWith_reads (Key.reads (Key.at_inRange (by omega) hs he hcy hp hp' hk un ut uc)
    packedNow_lt) rfl⟩

theorem Key.reopen_load {dec : Decoders} {img : List Byte} {n t c : Str} {cy len seek pdir : Int}
    {bs : List Byte} (hlen : len = bs.length) (hs : 0 ≤ seek)
    (hs' : seek < 2 ^ 31) (hl' : kl n t c + len < 2 ^ 31)
    (hst : ∀ w ∈ (Key.at n t c cy len (kl n t c) seek pdir false bs).twoWrites
      ((Key.at n t c cy len (kl n t c) seek pdir false bs).enc packedNow), Stored img w.pos w.data) :
    ((Key.at n t c cy len (kl n t c) seek pdir false bs).afterRead packedNow).load dec img = .ok bs := by
  have h26 : 26 ≤ kl n t c := (keyLenFor_ge _ _ _ false false).1
  exact Key.load_plain rfl hlen hs (by show 0 ≤ kl n t c; omega) (by show seek < 2 ^ 63; omega) hl'
    (hst _ (List.mem_cons_of_mem _ (List.mem_singleton.2 rfl)))

section
variable {env : Env} {path : Str} {f f' : FileW} {s : List StreamerInfo} {i : Nat} {buf : List Byte}

theorem readSpans_succ (n : Nat) (r : RBuffer) : readSpans (n + 1) r =
    if r.p.length ≤ r.c then .ok ([], r)
    else (do
      let s ← FreeSegments.unmarshal
      let ss ← readSpans n
      pure (s :: ss) : Rd (List FreeSegments)) r := rfl

theorem Reads.timesMap {ι α} {m : Rd α} {enc : ι → List Byte} {val : ι → α} {l : List ι}
    (h : ∀ a ∈ l, Reads m (enc a) (val a)) :
    Reads (Rd.times l.length m) (l.flatMap enc) (l.map val) := by
  induction l with
  | nil => exact Reads.pure []
  | cons a as ih =>
    simp only [List.length_cons, Rd.times, List.flatMap_cons, List.map_cons]
    refine Reads.bind (h a (by simp)) ?_
    have := Reads.bind (ih fun b hb => h b (by simp [hb]))
      (f := fun as => (Pure.pure (val a :: as) : Rd (List α))) (Reads.pure _)
    simpa using this

theorem readWith_of {α} {rd : Rd α} {data : List Byte} {off : Nat} {a : α} {r : RBuffer}
    (h : rd (RBuffer.over off data 0) = .ok (a, r)) : readWith rd data off = .ok a := by
  unfold readWith
  have h' : rd { p := data, c := 0, offset := off, refs := [], skip := none } = .ok (a, r) := h
  rw [h']

theorem ClosedAs.open_free_of (hi : Inv path f) (hc : ClosedAs env path f f' s i buf) {img : List Byte}
    (hlen : f'.header.end_ ≤ img.length)
    (hin : ∀ w ∈ (closingRecords f s i buf).2, Stored img w.pos w.data)
    (hb : f'.header.end_ ≤ kStartBigFile) (hu : utf8 path = true)
    (hp : dirKeyLen path + dirNameLen path ≤ 1000) (dec : Decoders) :
    readFreeSegments dec img f'.header = .ok [⟨f'.header.end_, kStartBigFile⟩] := by
  have he := hc.ends hi
  obtain ⟨n1, n2, -, -, n5⟩ := hc.names hi
  have n5' : (closing2 f s i buf).dir.seekDir = 100 := n5
  have hh := hc.header hi
  have e3 := hc.end3
  have v1 : f'.header.seekFree = (closing2 f s i buf).header.end_ := by rw [hh]
  have v2 : f'.header.nBytesFree = kl path [] (b! "TFile") + 10 := by rw [hh]
  have hk : freeKey (closing2 f s i buf) = Key.at path [] (b! "TFile") 1 10 (kl path [] (b! "TFile"))
      (closing2 f s i buf).header.end_ 100 false (FreeSegments.enc ⟨f'.header.end_, kStartBigFile⟩) := by
    unfold freeKey
    rw [n1, n2, n5', e3]
  have h10 : (FreeSegments.enc ⟨f'.header.end_, kStartBigFile⟩).length = 10 :=
    freeEnc_length _ _ (Int.le_refl _)
  have hst : ∀ w ∈ (freeKey (closing2 f s i buf)).twoWrites ((freeKey (closing2 f s i buf)).enc packedNow),
      Stored img w.pos w.data := fun w hw =>
    hin w (List.mem_append_right _ hw)
  rw [hk] at hst
  obtain ⟨data, r1, r2⟩ := Key.reopen (by rw [h10]; decide) (by omega) (by decide) (by decide) (by decide)
    (dirKeyLen_lt hp).2.2.2.2 hu (by decide) (by decide) (by omega) (by omega) hst
  have hbig : kStartBigFile = 2000000000 := rfl
  have r3 := Key.reopen_load (dec := dec) (by rw [h10]; rfl) (by omega) (by omega) (by omega) hst
  unfold readFreeSegments
  rw [v1, v2, Res.bind_ok r1, Res.bind_ok r2, Res.bind_ok r3, h10]
  have hr : Reads FreeSegments.unmarshal (FreeSegments.enc ⟨f'.header.end_, kStartBigFile⟩)
      ⟨f'.header.end_, kStartBigFile⟩ := by
    refine FreeSegments.reads ?_ ?_
    · show InI 4 f'.header.end_
      exact inI4_of_small (by omega) hb
    · show InI 4 kStartBigFile
      decide
  generalize hbs : FreeSegments.enc ⟨f'.header.end_, kStartBigFile⟩ = bs at hr h10
  have h1 := hr (RBuffer.fresh bs 0) rfl (Nat.zero_le _) (by simp [RBuffer.rest])
  unfold readWith
  have : readSpans 10 (RBuffer.fresh bs 0) = .ok ([⟨f'.header.end_, kStartBigFile⟩],
      (RBuffer.fresh bs 0).adv bs.length) := by
    have h2 : readSpans 9 ((RBuffer.fresh bs 0).adv bs.length) = .ok ([],
        (RBuffer.fresh bs 0).adv bs.length) := by
      rw [readSpans_succ, if_pos (by show bs.length ≤ 0 + bs.length; omega)]
    rw [readSpans_succ, if_neg (by show ¬ bs.length ≤ 0; omega), Rd.bind_ok h1, Rd.bind_ok h2]
    rfl
  rw [this]

theorem ClosedAs.open_free (hi : Inv path f) (hc : ClosedAs env path f f' s i buf)
    (hb : f'.header.end_ ≤ kStartBigFile) (hu : utf8 path = true)
    (hp : dirKeyLen path + dirNameLen path ≤ 1000) (dec : Decoders) :
    readFreeSegments dec (image f'.trace) f'.header = .ok [⟨f'.header.end_, kStartBigFile⟩] :=
  hc.open_free_of hi (hc.image_length hi) (fun _ hw => hc.stored hi (Or.inr hw)) hb hu hp dec

theorem ClosedAs.open_infos_of (he : env.Sound) (hi : Inv path f) (hc : ClosedAs env path f f' s i buf)
    {img : List Byte} (hlen : f'.header.end_ ≤ img.length)
    (hin : ∀ w ∈ (closingRecords f s i buf).2, Stored img w.pos w.data)
    (hk : InfosOk s i) (ha : ∀ j, i ≤ env.addr j) (hb : f'.header.end_ ≤ kStartBigFile)
    (hsmall : f'.header.nBytesInfo < 2 ^ 30) (hs : s.length < 2 ^ 31) (dec : Decoders) (fuel : Nat) :
    readStreamerInfo dec (fuel + 3) img f'.header =
      .ok (s.map StreamerInfo.expected).reverse := by
  have hen := hc.ends hi
  obtain ⟨-, -, -, -, n5⟩ := hc.names hi
  have n5' : (closing1 f).dir.seekDir = 100 := n5
  have hh := hc.header hi
  have e2 := hc.end2
  have v1 : f'.header.seekInfo = (closing1 f).header.end_ := by rw [hh]
  have v2 : f'.header.nBytesInfo = infoKeyLen + buf.length := by rw [hh]
  have k26 : 26 ≤ infoKeyLen := (keyLenFor_ge _ _ _ false false).1
  have hkey : infoKey (closing1 f) buf = Key.at infoName listTitle (b! "TList") 1 buf.length
      (kl infoName listTitle (b! "TList")) (closing1 f).header.end_ 100 false buf := by
    unfold infoKey
    rw [n5', asI4_nat hc.short]
  have hst : ∀ w ∈ (infoKey (closing1 f) buf).twoWrites ((infoKey (closing1 f) buf).enc packedNow),
      Stored img w.pos w.data := fun w hw =>
    hin w (List.mem_append_left _ hw)
  rw [hkey] at hst
  have ekl : kl infoName listTitle (b! "TList") = infoKeyLen := rfl
  obtain ⟨data, r1, r2⟩ := Key.reopen (Int.le_refl _) (by omega) (by decide) (by decide) (by decide)
    (by decide) (by decide) (by decide) (by decide) (by omega) (by omega) hst
  have hbig : kStartBigFile = 2000000000 := rfl
  have r3 := Key.reopen_load (dec := dec) rfl (by omega) (by omega) (by omega) hst
  unfold readStreamerInfo
  rw [v1, v2, if_neg (by omega), Res.bind_ok r1, Res.bind_ok r2]
  have hobj : Key.object dec (fuel + 3) img
      ((Key.at infoName listTitle (b! "TList") 1 buf.length (kl infoName listTitle (b! "TList"))
        (closing1 f).header.end_ 100 false buf).afterRead packedNow) =
      .ok (Obj.list TObject.default [] (s.map fun x => Obj.sinfo x.expected)) := by
    unfold Key.object
    rw [Res.bind_ok r3]
    have hf : factory (fuel + 3) ((Key.at infoName listTitle (b! "TList") 1 buf.length
        (kl infoName listTitle (b! "TList")) (closing1 f).header.end_ 100 false buf).afterRead
        packedNow).cls = some (do
          let l ← TList.unmarshal (readAny (fuel + 3))
          pure (Obj.list l.1 l.2.1 l.2.2)) := by
      show unmarshalOf _ (b! "TList") = _
      unfold unmarshalOf
      rw [if_pos rfl]
    simp only [hf]
    obtain ⟨S, hem⟩ := infos_emit he hk ha hs fuel
    obtain ⟨bs, w', w1, w2, -, w3⟩ := hem.roundTripAt (off := infoKeyLen.toNat) (pre := [])
      (by intro h; cases h)
    obtain ⟨n, w, m1, m2⟩ := hc.infos
    have eq : WBuffer.holding infoKeyLen.toNat [] = WBuffer.new infoKeyLen.toNat := rfl
    rw [eq, m1] at w1
    cases w1
    rw [List.nil_append] at w2
    have hbs : bs = buf := by rw [← w2, m2]
    subst hbs
    obtain ⟨r', q, -⟩ := w3 (by rw [List.nil_append]; omega) []
    rw [List.append_nil, List.nil_append] at q
    exact readWith_of q
  rw [Res.bind_ok hobj]
  have e : (s.map fun x => Obj.sinfo x.expected) = (s.map StreamerInfo.expected).map Obj.sinfo := by
    rw [List.map_map]; rfl
  simp only [e]
  exact takeInfos_map _

theorem ClosedAs.open_infos (he : env.Sound) (hi : Inv path f) (hc : ClosedAs env path f f' s i buf)
    (hk : InfosOk s i) (ha : ∀ j, i ≤ env.addr j) (hb : f'.header.end_ ≤ kStartBigFile)
    (hsmall : f'.header.nBytesInfo < 2 ^ 30) (hs : s.length < 2 ^ 31) (dec : Decoders) (fuel : Nat) :
    readStreamerInfo dec (fuel + 3) (image f'.trace) f'.header =
      .ok (s.map StreamerInfo.expected).reverse :=
  hc.open_infos_of he hi (hc.image_length hi) (fun _ hw => hc.stored hi (Or.inr hw)) hk ha hb hsmall hs
    dec fuel

/-- What a reader makes of a key of the directory. -/
def Key.listed (k : Key) : Key :=
  { k.afterRead packedNow with cls := shownClass k.cls }

theorem Key.reads_entry {k : Key} (h : k.InRange) : Reads readKeyEntry (k.enc packedNow) k.listed := by
  unfold readKeyEntry
  refine (Reads.bind (b2 := []) (Key.reads h packedNow_lt) ?_).congr (List.append_nil _)
  have e : (if (k.afterRead packedNow).cls = b! "TDirectory" then
      { k.afterRead packedNow with cls := b! "TDirectoryFile" } else k.afterRead packedNow) =
      k.listed := by
    unfold Key.listed shownClass
    have : (k.afterRead packedNow).cls = k.cls := rfl
    rw [this]
    split
    · rfl
    · rfl
  rw [e]
  exact Reads.pure _

/-- The key as it is written: its length has 16 bits. -/
def Key.wrapped (k : Key) : Key := { k with keyLen := asI 2 k.keyLen }

theorem encI_asI (k : Nat) (v : Int) : encI k (asI k v) = encI k v := by
  unfold encI asI
  rw [wrapI_toSigned (wrapI_lt k v)]

theorem Key.enc_wrapped (k : Key) (v : Nat) : k.wrapped.enc v = k.enc v := by
  unfold Key.enc Key.wrapped
  dsimp only
  rw [encI_asI]

theorem Key.wrapped_eq {k : Key} (h : InI 2 k.keyLen) : k.wrapped = k := by
  unfold Key.wrapped
  rw [asI_of (by decide) h]

/-- The names of the keys are texts. -/
def KeysText (f : FileW) : Prop := ∀ k ∈ f.dir.keys, utf8 k.name = true ∧ utf8 k.title = true ∧ utf8 k.cls = true

/-- The keys of the directory can be held by the format. -/
def KeysFit (f : FileW) : Prop := ∀ k ∈ f.dir.keys, kl k.name k.title k.cls < 32768 ∧
  utf8 k.name = true ∧ utf8 k.title = true ∧ utf8 k.cls = true

theorem KeyOk.inRange {k : Key} (h : KeyOk path f k) (hf : f.header.end_ ≤ kStartBigFile)
    (hx : kl k.name k.title k.cls < 32768 ∧
      utf8 k.name = true ∧ utf8 k.title = true ∧ utf8 k.cls = true) : k.InRange := by
  have h1 := h.lo
  have h2 := h.hi
  have h3 := dirPos_ge path
  rw [h.form]
  exact Key.at_inRange (by omega) (by omega) (by omega) h.cycle (by decide) (by decide) hx.1 hx.2.1
    hx.2.2.1 hx.2.2.2

theorem KeyOk.wrapped_inRange {k : Key} (h : KeyOk path f k) (hf : f.header.end_ ≤ kStartBigFile)
    (hx : utf8 k.name = true ∧ utf8 k.title = true ∧ utf8 k.cls = true) : k.wrapped.InRange := by
  have h1 := h.lo
  have h2 := h.hi
  have h3 := dirPos_ge path
  have hbig : kStartBigFile = 2000000000 := rfl
  obtain ⟨g0, g1, g2, g3⟩ := keyLenFor_ge k.name k.title k.cls false false
  have g0 : 26 ≤ kl k.name k.title k.cls := g0
  have g1 : (k.name.length : Int) < kl k.name k.title k.cls := g1
  have g2 : (k.title.length : Int) < kl k.name k.title k.cls := g2
  have g3 : (k.cls.length : Int) < kl k.name k.title k.cls := g3
  have e1 : k.nBytes = kl k.name k.title k.cls + k.buffer.length := by rw [h.form]; rfl
  have e2 : k.objLen = k.buffer.length := by rw [h.form]; rfl
  have e3 : k.rvers = 4 := by rw [h.form]; rfl
  have e4 : k.seekPdir = 100 := by rw [h.form]; rfl
  have e5 : InSeek (1000 < (4 : Int)) = InI 4 := rfl
  refine ⟨?_, ?_, ?_, ?_, ?_, asI_inI (by decide) _, h.cycle, ?_, ?_, ⟨by show k.cls.length < _; omega, hx.2.2⟩,
    ⟨by show k.name.length < _; omega, hx.1⟩, ⟨by show k.title.length < _; omega, hx.2.1⟩⟩
  · show 0 ≤ k.nBytes; omega
  · exact inI4_of_small (by show 0 ≤ k.nBytes; omega) (by show k.nBytes ≤ _; omega)
  · show InI 2 k.rvers; rw [e3]; decide
  · intro h
    have : kStartBigFile < k.seekKey := h
    omega
  · exact inI4_of_small (by show 0 ≤ k.objLen; omega) (by show k.objLen ≤ _; omega)
  · show InSeek (1000 < k.rvers) k.seekKey
    rw [e3, e5]; exact inI4_of_small (by omega) (by omega)
  · show InSeek (1000 < k.rvers) k.seekPdir
    rw [e3, e5, e4]; decide

theorem KeysFit.text (h : KeysFit f) : KeysText f := fun k hk => (h k hk).2

theorem KeysFit.wrapped (hi : ∀ k ∈ f.dir.keys, KeyOk path f k) (h : KeysFit f) :
    f.dir.keys.map (fun k => k.wrapped.listed) = f.dir.keys.map Key.listed := by
  refine List.map_congr_left fun k hk => ?_
  rw [Key.wrapped_eq]
  have h26 : 26 ≤ kl k.name k.title k.cls := (keyLenFor_ge _ _ _ false false).1
  have h1 := (h k hk).1
  have e : k.keyLen = kl k.name k.title k.cls := by rw [(hi k hk).form]; rfl
  rw [e]
  constructor <;> omega

theorem Inv.few_keys (hi : Inv path f) : 26 * (f.dir.keys.length : Int) + 4 ≤ keysLen f.dir := by
  unfold keysLen
  have : ∀ l : List Key, (∀ k ∈ l, 26 ≤ k.keyLen) → 26 * (l.length : Int) ≤ (l.map Key.keyLen).sum := by
    intro l
    induction l with
    | nil => intro _; simp
    | cons k l ih =>
      intro h
      have h1 := ih fun k hk => h k (List.mem_cons_of_mem _ hk)
      have h2 := h k (List.mem_cons_self ..)
      simp only [List.length_cons, List.map_cons, List.sum_cons]
      omega
  have := this f.dir.keys fun k hk => by
    rw [(hi.keys k hk).form]
    exact (keyLenFor_ge _ _ _ false false).1
  omega

/-- Reading the list of the keys. -/
theorem open_keys_of {img : List Byte} {path : Str} {f : FileW} {d : Dir} (n3 : f.dir.name = path)
    (n4 : f.dir.title = []) (n5 : f.dir.seekDir = 100) (hlo : 0 < f.header.end_)
    (hhi : f.header.end_ + (kl path [] (b! "TDirectory") + keysLen f.dir) ≤ kStartBigFile)
    (hlen : f.header.end_ + (kl path [] (b! "TDirectory") + keysLen f.dir) ≤ img.length)
    (hkb : ((keysBytes f.dir).length : Int) ≤ keysLen f.dir)
    (hfew : 26 * (f.dir.keys.length : Int) + 4 ≤ keysLen f.dir) (hu : utf8 path = true)
    (hp : dirKeyLen path + dirNameLen path ≤ 1000) (hk : ∀ k ∈ f.dir.keys, k.wrapped.InRange)
    (hst : ∀ w ∈ (keysKey f f.dir).twoWrites ((keysKey f f.dir).enc packedNow), Stored img w.pos w.data)
    (h1 : d.seekKeys = f.header.end_)
    (h2 : d.nBytesKeys = kl path [] (b! "TDirectory") + keysLen f.dir) :
    readKeys img d = .ok (f.dir.keys.map fun k => k.wrapped.listed) := by
  have hkey : keysKey f f.dir = Key.at path [] (b! "TDirectory") 1 (keysLen f.dir)
      (kl path [] (b! "TDirectory")) f.header.end_ 100 false (keysBytes f.dir) := by
    unfold keysKey
    rw [n3, n4, n5]
  rw [hkey] at hst
  have k26 : 26 ≤ kl path [] (b! "TDirectory") := (keyLenFor_ge _ _ _ false false).1
  obtain ⟨data, r1, r2⟩ := Key.reopen hkb (by omega) (by decide) (by decide) (by decide)
    (dirKeyLen_lt hp).2.2.2.1 hu (by decide) (by decide) (by omega) (by omega) hst
  have hst2 : Stored img (f.header.end_ + kl path [] (b! "TDirectory")).toNat
      (keysBytes f.dir) := hst _ (List.mem_cons_of_mem _ (List.mem_singleton.2 rfl))
  obtain ⟨rest, r3, -⟩ := readAt_more (pos := f.header.end_ + kl path [] (b! "TDirectory"))
    (len := keysLen f.dir) (by omega) hkb (by omega) hst2
  unfold readKeys
  rw [h1, h2, if_neg (by omega), Res.bind_ok r1, Res.bind_ok r2]
  show (sumU64 f.header.end_ (kl path [] (b! "TDirectory")) >>= _) = _
  have hbig : kStartBigFile = 2000000000 := rfl
  rw [Res.bind_ok (sumU64_of (by omega) (by omega) (by omega) (by omega))]
  show (readAt img (f.header.end_ + kl path [] (b! "TDirectory")) (keysLen f.dir) >>= _) = _
  rw [Res.bind_ok r3]
  refine readWith_reads (rest := rest) (bs := keysBytes f.dir) ?_ rfl
  unfold keysBytes
  have hn : InI 4 (f.dir.keys.length : Int) := inI4_of_small (by omega) (by omega)
  refine Reads.bind (Reads.sint (by decide) hn) ?_
  rw [Int.toNat_natCast]
  refine Reads.timesMap fun k hk' => ?_
  rw [← Key.enc_wrapped]
  exact Key.reads_entry (hk k hk')

theorem ClosedAs.open_keys (hi : Inv path f) (hc : ClosedAs env path f f' s i buf)
    (hb : f'.header.end_ ≤ kStartBigFile) (hu : utf8 path = true)
    (hp : dirKeyLen path + dirNameLen path ≤ 1000) (hk : KeysText f) {d : Dir}
    (h1 : d.seekKeys = f.header.end_)
    (h2 : d.nBytesKeys = kl path [] (b! "TDirectory") + keysLen f.dir) :
    readKeys (image f'.trace) d = .ok (f.dir.keys.map fun k => k.wrapped.listed) := by
  have hen := hc.ends hi
  have hlen := hc.image_length hi
  obtain ⟨-, -, n3, n4, n5⟩ := hc.names hi
  have e1 := hc.end1
  exact open_keys_of n3 n4 n5 (by omega) (by omega) (by omega) hi.keysBytes_le hi.few_keys hu hp
    (fun k hk' => (hi.keys k hk').wrapped_inRange hi.good.hi (hk k hk')) (fun w hw => hc.stored hi (Or.inl hw)) h1 h2

/-- Opening a closed file whose objects have names of any length. -/
theorem ClosedAs.open_any (he : env.Sound) (hi : Inv path f) (hc : ClosedAs env path f f' s i buf)
    (hb : f'.header.end_ ≤ kStartBigFile) (hu : utf8 path = true)
    (hp : dirKeyLen path + dirNameLen path ≤ 1000) (hk : KeysText f)
    (hko : InfosOk s i) (ha : ∀ j, i ≤ env.addr j)
    (hsmall : f'.header.nBytesInfo < 2 ^ 30) (hs : s.length < 2 ^ 31) (dec : Decoders) (fuel : Nat) :
    openFile dec (fuel + 3) (image f'.trace) = .ok
      { header := f'.header, spans := [⟨f'.header.end_, kStartBigFile⟩]
        sinfos := (s.map StreamerInfo.expected).reverse
        dir := { (closedDir f).afterRead packedNow packedNow with
          className := b! "TFile", name := path, keys := f.dir.keys.map fun k => k.wrapped.listed }
        img := image f'.trace } := by
  have hen := hc.ends hi
  have hh := hc.header hi
  obtain ⟨-, -, n3, n4, n5⟩ := hc.names hi
  have v1 : f'.header.seekInfo = (closing1 f).header.end_ := by rw [hh]
  have v2 : f'.header.seekFree = (closing2 f s i buf).header.end_ := by rw [hh]
  obtain ⟨data, r1, r2⟩ := hc.open_header hi
  have r3 := hc.open_dir hi hb hu
  rw [if_neg (by omega)] at r3
  have r6 := hc.open_keys hi hb hu hp hk (d := { (closedDir f).afterRead packedNow packedNow with
    className := b! "TFile", name := path }) rfl (by
      show kl f.dir.name f.dir.title _ + _ = _
      rw [n3, n4])
  have r4 : whenPositive f'.header.seekFree (readFreeSegments dec (image f'.trace) f'.header) =
      .ok [⟨f'.header.end_, kStartBigFile⟩] := by
    unfold whenPositive
    rw [if_pos (by omega)]
    exact hc.open_free hi hb hu hp dec
  have r5 : whenPositive f'.header.seekInfo (readStreamerInfo dec (fuel + 3) (image f'.trace) f'.header) =
      .ok (s.map StreamerInfo.expected).reverse := by
    unfold whenPositive
    rw [if_pos (by omega)]
    exact hc.open_infos he hi hko ha hb hsmall hs dec fuel
  unfold openFile
  rw [Res.bind_ok r1, Res.bind_ok r2, Res.bind_ok r3, Res.bind_ok r4, Res.bind_ok r5, Res.bind_ok r6]
  rfl

/-- Opening a closed file. -/
theorem ClosedAs.open_file (he : env.Sound) (hi : Inv path f) (hc : ClosedAs env path f f' s i buf)
    (hb : f'.header.end_ ≤ kStartBigFile) (hu : utf8 path = true)
    (hp : dirKeyLen path + dirNameLen path ≤ 1000) (hk : KeysFit f)
    (hko : InfosOk s i) (ha : ∀ j, i ≤ env.addr j)
    (hsmall : f'.header.nBytesInfo < 2 ^ 30) (hs : s.length < 2 ^ 31) (dec : Decoders) (fuel : Nat) :
    openFile dec (fuel + 3) (image f'.trace) = .ok
      { header := f'.header, spans := [⟨f'.header.end_, kStartBigFile⟩]
        sinfos := (s.map StreamerInfo.expected).reverse
        dir := { (closedDir f).afterRead packedNow packedNow with
          className := b! "TFile", name := path, keys := f.dir.keys.map Key.listed }
        img := image f'.trace } := by
  rw [← KeysFit.wrapped hi.keys hk]
  exact hc.open_any he hi hb hu hp hk.text hko ha hsmall hs dec fuel
end

end Verif
