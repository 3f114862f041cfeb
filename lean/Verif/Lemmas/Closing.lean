import Verif.Lemmas.AfterClose
import Verif.Lemmas.RootClosed
import Verif.Lemmas.Crash
/-
The moments of `close` between the record of the directory and the last header.
-/
namespace Verif

section
variable {env : Env} {path : Str} {f f' : FileW} {s : List StreamerInfo} {i : Nat} {buf : List Byte}

/-- What is on disk once the record of the directory is written again, with `vs` written since. -/
def windowTrace (f : FileW) (s : List StreamerInfo) (i : Nat) (buf : List Byte) (vs : List DiskWrite) : List DiskWrite :=
  f.trace ++ (closingRecords f s i buf).1 ++ [dirWrite f] ++ vs

/-- The writes of a session in front of those of `close`. -/
theorem window_split (hi : Inv path f) (hc : ClosedAs env path f f' s i buf) {vs : List DiskWrite}
    (hvs : ∀ v ∈ vs, (closing1 f).header.end_ ≤ v.pos) :
    ∃ ws, windowTrace f s i buf vs = [⟨0, List.replicate 100 0⟩, ⟨0, (createdHeader path).enc⟩] ++
      ⟨100, (dirKey path).enc packedNow⟩ ::
      (⟨(100 + dirKeyLen path).toNat, dirPayload path (createdDir path)⟩ ::
      (ws ++ (closingRecords f s i buf).1 ++ dirWrite f :: vs)) ∧
      ∀ v ∈ ws ++ (closingRecords f s i buf).1 ++ dirWrite f :: vs, dirPos path ≤ v.pos := by
  have hd := dirPos_ge path
  have hlo := hi.lo
  have hp := hc.placed hi
  have hdw := dirWrite_eq hi
  have hen := hc.ends hi
  obtain ⟨ws, t, pw, pq⟩ := hi.records
  have w2 : (dirKey path).twoWrites ((dirKey path).enc packedNow) =
      [⟨100, (dirKey path).enc packedNow⟩,
       ⟨(100 + dirKeyLen path).toNat, dirPayload path (createdDir path)⟩] := rfl
  refine ⟨ws, ?_, fun v hv => ?_⟩
  · unfold windowTrace
    rw [t, w2]; simp
  · rcases List.mem_append.1 hv with hv | hv
    · rcases List.mem_append.1 hv with hv | hv
      · have := (pw.mem hv).1; omega
      · have := (hp.mem (List.mem_append_left _ hv)).1; omega
    · rcases List.mem_cons.1 hv with rfl | hv
      · omega
      · have := hvs v hv; omega

theorem window_header (hi : Inv path f) (hc : ClosedAs env path f f' s i buf) {vs : List DiskWrite}
    (hvs : ∀ v ∈ vs, (closing1 f).header.end_ ≤ v.pos) (hlim : dirPos path + 60 ≤ kStartBigFile) :
    Stored (image (windowTrace f s i buf vs)) 0 (createdHeader path).enc := by
  obtain ⟨hr, hwide⟩ := createdHeader_inRange hlim
  have hl := FileHeader.enc_length hr
  rw [hwide, if_neg (by decide)] at hl
  have hd := dirPos_ge path
  have hdp' : dirPos path = 100 + (dirKeyLen path + dirNameLen path) := rfl
  have hk26 : 26 ≤ dirKeyLen path := (keyLenFor_ge path [] (b! "TFile") false false).1
  obtain ⟨ws, t, hw⟩ := window_split hi hc hvs
  rw [t]
  refine Stored.image (a := [⟨0, List.replicate 100 0⟩]) (w := ⟨0, (createdHeader path).enc⟩) fun v hv => ?_
  left
  show 0 + (createdHeader path).enc.length ≤ v.pos
  rcases List.mem_cons.1 hv with rfl | hv
  · show _ ≤ 100; omega
  · rcases List.mem_cons.1 hv with rfl | hv
    · show _ ≤ (100 + dirKeyLen path).toNat; omega
    · have := hw v hv; omega

theorem window_dir (hi : Inv path f) (hc : ClosedAs env path f f' s i buf) {vs : List DiskWrite}
    (hvs : ∀ v ∈ vs, (closing1 f).header.end_ ≤ v.pos) :
    Stored (image (windowTrace f s i buf vs)) 100 ((dirKey path).enc packedNow ++ (encStr path ++ (encStr [] ++
      (closedDir f).enc packedNow packedNow))) := by
  have hd := dirPos_ge path
  have hlo := hi.lo
  have hdw := dirWrite_eq hi
  have hen := hc.ends hi
  have hkl : (((dirKey path).enc packedNow).length : Int) = dirKeyLen path :=
    (Key.at_enc_length path [] (b! "TFile") 1 (dirNameLen path + 60) 100 0
      (dirPayload path (createdDir path))).trans (Int.sub_zero _)
  have hk26 : 26 ≤ dirKeyLen path := (keyLenFor_ge path [] (b! "TFile") false false).1
  have hnl : ((encStr path ++ encStr []).length : Int) = dirNameLen path := by
    unfold dirNameLen
    rw [tstringSizeof_eq, tstringSizeof_eq, List.length_append, Int.natCast_add]
  have hpos : dirPos path = 100 + (dirKeyLen path + dirNameLen path) := rfl
  obtain ⟨ws, htr, hsplit⟩ := window_split hi hc hvs
  rw [Stored.append]
  refine ⟨?_, ?_⟩
  · rw [htr]
    refine Stored.image (w := ⟨100, (dirKey path).enc packedNow⟩) fun v hv => ?_
    rcases List.mem_cons.1 hv with rfl | hv
    · left; show 100 + ((dirKey path).enc packedNow).length ≤ (100 + dirKeyLen path).toNat; omega
    · have h := hsplit v hv
      have : 0 ≤ dirNameLen path := by omega
      left; show 100 + ((dirKey path).enc packedNow).length ≤ _; omega
  · rw [← List.append_assoc, Stored.append]
    refine ⟨?_, ?_⟩
    · rw [htr, show ∀ (a : List DiskWrite) x y b, a ++ x :: y :: b = (a ++ [x, y]) ++ b by simp,
        image_append]
      refine Stored.foldl ?_ fun v hv => ?_
      · rw [show ∀ (a : List DiskWrite) x y, a ++ [x, y] = (a ++ [x]) ++ [y] by simp, image_append]
        have := Stored.written (image ([⟨0, List.replicate 100 0⟩, ⟨0, (createdHeader path).enc⟩] ++
          [⟨100, (dirKey path).enc packedNow⟩]))
          ⟨(100 + dirKeyLen path).toNat, dirPayload path (createdDir path)⟩
        have e : dirPayload path (createdDir path) = encStr path ++ encStr [] ++
            (createdDir path).enc packedNow packedNow := by simp [dirPayload]
        have := (Stored.append.1 (e ▸ this : Stored _ _ (_ ++ _))).1
        rw [show 100 + ((dirKey path).enc packedNow).length = (100 + dirKeyLen path).toNat by omega,
          e]
        exact this
      · have h := hsplit v hv
        left; omega
    · have epos : 100 + ((dirKey path).enc packedNow).length + (encStr path ++ encStr []).length =
          (dirWrite f).pos := by omega
      rw [epos]
      unfold windowTrace
      rw [List.append_assoc (f.trace ++ _)]
      refine Stored.image (w := dirWrite f) fun v hv => ?_
      have := hvs v hv
      left; omega

/-- The list of the keys. -/
theorem window_keys (hi : Inv path f) (hc : ClosedAs env path f f' s i buf) {vs : List DiskWrite}
    (hvs : ∀ v ∈ vs, (closing1 f).header.end_ ≤ v.pos) {w : DiskWrite} (hw : w ∈ (closingRecords f s i buf).1) :
    Stored (image (windowTrace f s i buf vs)) w.pos w.data := by
  have hd := dirPos_ge path
  have hlo := hi.lo
  have hdw := dirWrite_eq hi
  have e1 := hc.end1
  have hp1 : Placed f.header.end_ (closingRecords f s i buf).1 (closing1 f).header.end_ := by
    have hn : f.dir.name = path := by rw [hi.dir]; rfl
    have ht : f.dir.title = [] := by rw [hi.dir]; rfl
    have kb := hi.keysBytes_le
    refine Placed.mono (Key.placed_enc (by omega)) ?_
    rw [hn, ht]
    omega
  unfold windowTrace
  rw [List.append_assoc]
  have h1 := hp1.mem hw
  refine hp1.stored hw fun v hv _ => ?_
  rcases List.mem_append.1 hv with hv | hv
  · rw [List.mem_singleton] at hv
    subst hv
    right; omega
  · have := hvs v hv
    left; omega

/-- What was stored. -/
theorem window_body (hi : Inv path f) (hc : ClosedAs env path f f' s i buf) {vs : List DiskWrite}
    (hvs : ∀ v ∈ vs, (closing1 f).header.end_ ≤ v.pos) {w : DiskWrite} (hw : w ∈ f.trace)
    (hb : dirPos path + 60 ≤ w.pos) :
    Stored (image (windowTrace f s i buf vs)) w.pos w.data := by
  have hd := dirPos_ge path
  have hdw := dirWrite_eq hi
  have hp := hc.placed hi
  have hen := hc.ends hi
  rcases Nat.eq_zero_or_pos w.data.length with h0 | h0
  · rw [List.length_eq_zero_iff.1 h0]
    exact Stored.nil _ _
  obtain ⟨ws, t, pw, pq⟩ := hi.records
  have hw' : w ∈ ws := by
    rw [t] at hw
    rcases List.mem_append.1 hw with hw | hw
    · exfalso
      simp only [List.mem_cons, List.not_mem_nil, or_false] at hw
      rcases hw with rfl | rfl
      · have : dirPos path + 60 ≤ ((0 : Nat) : Int) := hb
        omega
      · have : dirPos path + 60 ≤ ((0 : Nat) : Int) := hb
        omega
    · rcases List.mem_append.1 hw with hw | hw
      · exfalso
        have := (dirKey_placed path).mem hw
        omega
      · exact hw
  have h1 := pw.mem hw'
  unfold windowTrace
  rw [t, show ∀ a b c d e g : List DiskWrite, a ++ (b ++ c) ++ d ++ e ++ g = (a ++ b) ++ c ++ (d ++ (e ++ g)) by simp]
  refine pw.stored hw' fun v hv _ => ?_
  rcases List.mem_append.1 hv with hv | hv
  · have := hp.mem (List.mem_append_left _ hv)
    left; omega
  · rcases List.mem_append.1 hv with hv | hv
    · rw [List.mem_singleton] at hv
      subst hv
      right; omega
    · have := hvs v hv
      left; omega

theorem window_length (hi : Inv path f) (hc : ClosedAs env path f f' s i buf) {vs : List DiskWrite}
    (hvs : ∀ v ∈ vs, (closing1 f).header.end_ ≤ v.pos) :
    f.header.end_ + (kl path [] (b! "TDirectory") + (keysBytes f.dir).length) ≤
      (image (windowTrace f s i buf vs)).length := by
  have hen := hc.ends hi
  obtain ⟨-, -, n3, n4, n5⟩ := hc.names hi
  have ekl : (keysKey f f.dir).keyLen = kl path [] (b! "TDirectory") := by
    show kl f.dir.name f.dir.title _ = _
    rw [n3, n4]
  have k26 : 26 ≤ kl path [] (b! "TDirectory") := (keyLenFor_ge _ _ _ false false).1
  have := window_keys hi hc hvs (w := ⟨((keysKey f f.dir).seekKey + (keysKey f f.dir).keyLen).toNat,
    (keysKey f f.dir).buffer⟩) (List.mem_cons_of_mem _ (List.mem_singleton.2 rfl))
  rw [ekl] at this
  have hkst : Stored (image (windowTrace f s i buf vs)) (f.header.end_ + kl path [] (b! "TDirectory")).toNat
      (keysBytes f.dir) := this
  have hlen := hkst.le (by
    intro h
    have := congrArg List.length h
    unfold keysBytes at this
    rw [List.length_append, encI_length] at this
    have h4 : ([] : List Byte).length = 0 := rfl
    omega)
  omega

/-- The header and the directory, between the record of the directory and the last header. -/
theorem window_starts (hi : Inv path f) (hc : ClosedAs env path f f' s i buf)
    (hb : f'.header.end_ ≤ kStartBigFile) (hu : utf8 path = true)
    (hp : dirKeyLen path + dirNameLen path ≤ 1000) {vs : List DiskWrite}
    (hvs : ∀ v ∈ vs, (closing1 f).header.end_ ≤ v.pos) :
    ∃ rest, readAt (image (windowTrace f s i buf vs)) 0 (64 + 12) = .ok ((createdHeader path).enc ++ rest) ∧
      readWith FileHeader.unmarshal ((createdHeader path).enc ++ rest) = .ok (createdHeader path) ∧
      readDirInfo (image (windowTrace f s i buf vs)) (createdHeader path) =
        .ok { (closedDir f).afterRead packedNow packedNow with className := b! "TFile", name := path } := by
  have hen := hc.ends hi
  have hlo := hi.lo
  have hd := dirPos_ge path
  have hlim : dirPos path + 60 ≤ kStartBigFile := by omega
  obtain ⟨hr, hwide⟩ := createdHeader_inRange hlim
  have hl := FileHeader.enc_length hr
  rw [hwide, if_neg (by decide)] at hl
  have hlen := window_length hi hc hvs
  have k26 : 26 ≤ kl path [] (b! "TDirectory") := (keyLenFor_ge _ _ _ false false).1
  have hh := window_header hi hc hvs hlim
  obtain ⟨rest, r1, -⟩ := readAt_more (pos := 0) (len := 64 + 12) (Int.le_refl _)
    (by rw [hl]; decide) (by omega) hh
  have r3 := open_dir_of (h := createdHeader path) (d := closedDir f) rfl rfl rfl
    (by show dirPos path + 60 ≤ _; exact hlim) (Int.le_refl _)
    (by show dirPos path + 60 ≤ _; omega) (by show f.dir.nBytesName = _; rw [hi.dir]; rfl) (dirWrite_eq hi).2
    (hc.dir_inRange hi hb) hu (window_dir hi hc hvs)
  rw [if_neg (by omega)] at r3
  exact ⟨rest, r1, readWith_reads (FileHeader.reads hr) rfl, r3⟩

/-- A file that ends before its list of keys does is refused. -/
theorem ClosedAs.window_short (hi : Inv path f) (hc : ClosedAs env path f f' s i buf)
    (hb : f'.header.end_ ≤ kStartBigFile) (hu : utf8 path = true)
    (hp : dirKeyLen path + dirNameLen path ≤ 1000) {vs : List DiskWrite}
    (hvs : ∀ v ∈ vs, (closing1 f).header.end_ ≤ v.pos)
    (hlen : ((image (windowTrace f s i buf vs)).length : Int) < (closing1 f).header.end_) (dec : Decoders) (fuel : Nat)
    (r : FileR) : openFile dec fuel (image (windowTrace f s i buf vs)) ≠ .ok r := by
  intro h
  obtain ⟨rest, r1, r2, r3⟩ := window_starts hi hc hb hu hp hvs
  obtain ⟨buf, hd, d, keys, h1, h2, h3, h4⟩ := openFile_starts h
  have h1 := r1.symm.trans h1
  injection h1 with h1
  rw [← h1, r2] at h2
  injection h2 with h2
  rw [← h2, r3] at h3
  injection h3 with h3
  have e1 := hc.end1
  have k26 : 26 ≤ kl path [] (b! "TDirectory") := (keyLenFor_ge _ _ _ false false).1
  obtain ⟨-, -, n3, n4, n5⟩ := hc.names hi
  have hfew := hi.few_keys
  have s1 : d.seekKeys = f.header.end_ := by rw [← h3]; rfl
  have s2 : d.nBytesKeys = kl path [] (b! "TDirectory") + keysLen f.dir := by
    rw [← h3]
    show kl f.dir.name f.dir.title _ + _ = _
    rw [n3, n4]
  unfold readKeys at h4
  split at h4
  · cases h4
  · obtain ⟨data, h5, -⟩ := Res.ok_bind.1 h4
    obtain ⟨-, -, h6, -⟩ := readAt_inv h5 (by omega)
    omega

/-- Opening what is on disk between the record of the directory and the last header. -/
theorem ClosedAs.open_window (hi : Inv path f) (hc : ClosedAs env path f f' s i buf)
    (hb : f'.header.end_ ≤ kStartBigFile) (hu : utf8 path = true)
    (hp : dirKeyLen path + dirNameLen path ≤ 1000) (hk : KeysFit f) {vs : List DiskWrite}
    (hvs : ∀ v ∈ vs, (closing1 f).header.end_ ≤ v.pos)
    (hlen : (closing1 f).header.end_ ≤ (image (windowTrace f s i buf vs)).length) (dec : Decoders) (fuel : Nat) :
    openFile dec fuel (image (windowTrace f s i buf vs)) = .ok
      { header := createdHeader path, spans := [], sinfos := []
        dir := { (closedDir f).afterRead packedNow packedNow with
          className := b! "TFile", name := path, keys := f.dir.keys.map Key.listed }
        img := image (windowTrace f s i buf vs) } := by
  have hen := hc.ends hi
  have e1 := hc.end1
  obtain ⟨-, -, n3, n4, n5⟩ := hc.names hi
  obtain ⟨rest, r1, r2, r3⟩ := window_starts hi hc hb hu hp hvs
  have r4 : whenPositive (createdHeader path).seekFree (readFreeSegments dec (image (windowTrace f s i buf vs))
      (createdHeader path)) = .ok [] := rfl
  have r5 : whenPositive (createdHeader path).seekInfo (readStreamerInfo dec fuel (image (windowTrace f s i buf vs))
      (createdHeader path)) = .ok [] := rfl
  have r6 := open_keys_of (d := { (closedDir f).afterRead packedNow packedNow with
      className := b! "TFile", name := path }) n3 n4 n5 (by omega) (by omega) (by omega) hi.keysBytes_le hi.few_keys hu hp
    (fun k hk' => (hi.keys k hk').wrapped_inRange hi.good.hi (hk k hk').2) (fun w hw => window_keys hi hc hvs hw) rfl
    (by
      show kl f.dir.name f.dir.title _ + _ = _
      rw [n3, n4])
  rw [KeysFit.wrapped hi.keys hk] at r6
  unfold openFile
  rw [Res.bind_ok r1, Res.bind_ok r2, Res.bind_ok r3, Res.bind_ok r4, Res.bind_ok r5, Res.bind_ok r6]
  rfl

/-- The list of keys is complete unless an object claims to be a basket. -/
theorem window_long (hi : Inv path f) (hc : ClosedAs env path f f' s i buf)
    (hno : ∀ k ∈ f.dir.keys, k.cls ≠ b! "TBasket") {vs : List DiskWrite}
    (hvs : ∀ v ∈ vs, (closing1 f).header.end_ ≤ v.pos) :
    (closing1 f).header.end_ ≤ (image (windowTrace f s i buf vs)).length := by
  have h1 := window_length hi hc hvs
  have h2 := hi.keysBytes_length hno
  have h3 := hc.end1
  omega

end

end Verif
