import Verif.Props.Puts
import Verif.Lemmas.Open
import Verif.Lemmas.KeyLoad
import Verif.Spec.Compress
/-
C07 (a key occupies the space it declares), C33 (payloads are stored as they are), C34 (compressed
payloads), C35 (streamer records), C45 (names), C46 (identification).
-/
namespace Verif

/-! ### C46 -/

/-- C46: a file that opens has at least 76 bytes and starts with `root`. -/
theorem C46_identified {dec : Decoders} {fuel : Nat} {img : List Byte} {f : FileR}
    (h : openFile dec fuel img = .ok f) : 76 ≤ img.length ∧ img.take 4 = b! "root" := by
  unfold openFile at h
  obtain ⟨buf, hr, h⟩ := Res.ok_bind.1 h
  have hb : 76 ≤ img.length ∧ buf = img.take 76 := by
    unfold readAt at hr
    rw [if_neg (by decide), if_neg (by decide)] at hr
    split at hr
    next hl => cases hr; exact ⟨hl, by simp⟩
    next => rw [if_neg (by decide)] at hr; cases hr
  obtain ⟨h76, rfl⟩ := hb
  refine ⟨h76, ?_⟩
  obtain ⟨hd, hu, -⟩ := Res.ok_bind.1 h
  obtain ⟨r, hu⟩ := readWith_ok hu
  unfold FileHeader.unmarshal at hu
  have h4 : (img.take 4).length = 4 := by rw [List.length_take]; omega
  have ht := Rd.take_ok (r := RBuffer.fresh (img.take 76) 0) (bs := img.take 4) (Nat.zero_le _) (by
    simp only [RBuffer.rest, List.drop_zero]
    exact ⟨(img.take 76).drop 4, by
      have : img.take 4 = (img.take 76).take 4 := by rw [List.take_take]; rfl
      rw [this, List.take_append_drop]⟩)
  rw [h4] at ht
  rw [Rd.bind_ok ht] at hu
  by_cases hm : img.take 4 = rootMagic
  · exact hm
  · rw [if_pos hm] at hu
    cases hu

/-- In other words: data that are too short, or do not start with `root`, never open. -/
theorem C46_refused (dec : Decoders) (fuel : Nat) (img : List Byte)
    (h : img.length < 76 ∨ img.take 4 ≠ b! "root") : ∀ f, openFile dec fuel img ≠ .ok f := by
  intro f hf
  have := C46_identified hf
  rcases h with h | h
  · omega
  · exact h this.2

/-- Both cases exist, with a file of another format and with a truncated one. -/
example : (List.replicate 100 (0x89 : Byte)).take 4 ≠ b! "root" ∧
    ((b! "root") ++ List.replicate 60 (0 : Byte)).length < 76 := by decide

/-! ### C35 -/

theorem addInfo_first {regs kept : List StreamerInfo} (h : FirstOfEachName regs kept)
    (si : StreamerInfo) : FirstOfEachName (regs ++ [si]) (addInfo kept si) := by
  unfold addInfo
  by_cases hin : kept.any (fun s => s.name = si.name) = true
  · rw [if_pos hin]
    obtain ⟨s, hs, hn⟩ := List.any_eq_true.1 hin
    have hn : s.name = si.name := by simpa using hn
    refine ⟨h.order.trans (List.sublist_append_left _ _), h.once, fun r hr => ?_, fun r hr => ?_⟩
    · rcases List.mem_append.1 hr with hr | hr
      · exact h.all r hr
      · rw [List.mem_singleton.1 hr, ← hn]
        exact List.mem_map.2 ⟨s, hs, rfl⟩
    · rw [List.find?_append, h.first r hr]; rfl
  · rw [if_neg hin]
    have hout : si.name ∉ kept.map StreamerInfo.name := by
      intro hc
      obtain ⟨s, hs, hn⟩ := List.mem_map.1 hc
      exact hin (List.any_eq_true.2 ⟨s, hs, by simpa using hn⟩)
    refine ⟨h.order.append (List.Sublist.refl _), ?_, fun r hr => ?_, fun r hr => ?_⟩
    · rw [List.map_append, List.nodup_append]
      refine ⟨h.once, by simp, fun a ha b hb => ?_⟩
      rw [List.map_singleton, List.mem_singleton] at hb
      rintro rfl
      exact hout (hb ▸ ha)
    · rw [List.map_append, List.mem_append]
      rcases List.mem_append.1 hr with hr | hr
      · exact Or.inl (h.all r hr)
      · right; rw [List.mem_singleton.1 hr]; simp
    · rcases List.mem_append.1 hr with hr | hr
      · rw [List.find?_append, h.first r hr]; rfl
      · rw [List.mem_singleton.1 hr, List.find?_append]
        have : regs.find? (fun r => r.name = si.name) = none := by
          rw [List.find?_eq_none]
          intro r hr hn
          have hn : r.name = si.name := by simpa using hn
          exact hout (hn ▸ h.all r hr)
        rw [this]
        simp

theorem addInfo_contents (kept : List StreamerInfo) (si : StreamerInfo) :
    (addInfo kept si).map StreamerInfo.contents = addInfo (kept.map StreamerInfo.contents) si.contents := by
  unfold addInfo
  have h : (kept.map StreamerInfo.contents).any (fun s => decide (s.name = si.contents.name)) =
      kept.any (fun s => decide (s.name = si.name)) := by
    rw [List.any_map]; rfl
  rw [h]
  split
  · rfl
  · rw [List.map_append]; rfl

theorem cloneElems_contents (n : Nat) (es : List Streamer) :
    (cloneElems n es).map (Streamer.withId 0) = es.map (Streamer.withId 0) := by
  induction es generalizing n with
  | nil => rfl
  | cons e es ih =>
    simp only [cloneElems, List.map_cons, ih]
    congr 1
    cases e <;> rfl

theorem StreamerInfo.cloneAt_contents (s : StreamerInfo) (n : Nat) :
    (s.cloneAt n).contents = s.contents := by
  simp only [StreamerInfo.contents, StreamerInfo.cloneAt, cloneElems_contents]

/-- C35: after any sequence of registrations the file holds the contents of the first record of each
class name, in the order of the first registrations. -/
theorem C35_registered {env : Env} {path : Str} {sis : List StreamerInfo} {f : FileW}
    (h : Session env path (sis.map .register) f) :
    FirstOfEachName (sis.map StreamerInfo.contents) (f.sinfos.map StreamerInfo.contents) := by
  obtain ⟨ids, f0, hc, hb, hr⟩ := h
  obtain ⟨rfl, -⟩ := create_ok hc hb.end_
  generalize hops : sis.map Op.register = ops at hr
  induction hr generalizing sis with
  | nil =>
    have : sis = [] := by simpa using hops
    subst this
    exact ⟨List.Sublist.refl _, .nil, (fun s hs => by cases hs), (fun s hs => by cases hs)⟩
  | @snoc ops g op r g' h1 h2 h3 h4 ih =>
    obtain ⟨l1, l2, rfl, hl1, hl2⟩ := List.map_eq_append_iff.1 hops
    obtain ⟨si, rfl⟩ : ∃ si, l2 = [si] := by
      match l2, hl2 with
      | [si], _ => exact ⟨si, rfl⟩
      | [], h => simp at h
      | _ :: _ :: _, h => simp at h
    simp at hl2
    subst hl2
    have := ih hl1
    simp only [Op.run] at h2
    rw [registerInfo_eq] at h2
    cases h2
    rw [List.map_append, List.map_singleton]
    show FirstOfEachName _ ((addInfo g.sinfos (si.cloneAt g.ids)).map _)
    rw [addInfo_contents, StreamerInfo.cloneAt_contents]
    exact addInfo_first this si.contents

theorem addInfo_nodup {kept : List StreamerInfo} (h : (kept.map StreamerInfo.name).Nodup)
    (si : StreamerInfo) :
    ((addInfo kept si).map StreamerInfo.name).Nodup ∧ ∃ more, addInfo kept si = kept ++ more := by
  unfold addInfo
  by_cases hin : kept.any (fun s => s.name = si.name) = true
  · rw [if_pos hin]
    exact ⟨h, [], (List.append_nil _).symm⟩
  · rw [if_neg hin]
    refine ⟨?_, _, rfl⟩
    rw [List.map_append, List.nodup_append]
    refine ⟨h, by simp, fun a ha b hb => ?_⟩
    rw [List.map_singleton, List.mem_singleton] at hb
    rintro rfl
    subst hb
    obtain ⟨s, hs, hn⟩ := List.mem_map.1 ha
    exact hin (List.any_eq_true.2 ⟨s, hs, by simpa using hn⟩)

theorem step_sinfos {env : Env} {path : Str} {op : Op} {r : Res Unit} {f f' : FileW} (hi : Inv path f)
    (h : op.run env f = (r, f')) (hr : r ≠ .error .panic) (hb : f'.Below2GB) :
    f'.sinfos = f.sinfos ∨ ∃ si, f'.sinfos = addInfo f.sinfos si := by
  have ann : ∀ {obj g}, Announced env obj f g →
      g.sinfos = f.sinfos ∨ ∃ si, g.sinfos = addInfo f.sinfos si := by
    intro obj g ha
    cases ha with
    | core _ => exact Or.inl rfl
    | @found si m _ _ => exact Or.inr ⟨si, rfl⟩
  cases op with
  | put name obj =>
    rcases r with (e | e) | u
    · rcases put_err hi.good h with rfl | ha
      · exact Or.inl rfl
      · exact ann ha
    · exact absurd rfl hr
    · obtain ⟨-, c, f1, m, w, -, ha, -, -, -, rfl⟩ := put_ok hi.good h
      have := ann ha
      exact this
  | basket b =>
    left
    simp only [Op.run] at h
    generalize hw : b.writeToFile f = x at h
    obtain ⟨(e | e) | ⟨b', n, m⟩, f1⟩ := x
    · exact absurd hw (WBasket.writeToFile_err hi.good)
    · cases h; exact absurd rfl hr
    · cases h
      obtain ⟨-, w, -, -, ht, -⟩ := basket_inv hi hw hb
      rw [ht]; rfl
  | register si =>
    simp only [Op.run] at h
    rw [registerInfo_eq] at h
    cases h
    exact Or.inr ⟨_, rfl⟩

theorem runs_sinfos {env : Env} {path : Str} {ops : List Op} {f g : FileW} (hi : Inv path f)
    (h : Runs env f ops g) (hn : (f.sinfos.map StreamerInfo.name).Nodup) :
    (g.sinfos.map StreamerInfo.name).Nodup ∧ ∃ more, g.sinfos = f.sinfos ++ more := by
  induction h with
  | nil => exact ⟨hn, [], (List.append_nil _).symm⟩
  | @snoc ops g1 op r g' h1 h2 h3 h4 ih =>
    obtain ⟨hn1, more, hm⟩ := ih
    rcases step_sinfos (runs_inv hi h1) h2 h3 h4 with h | ⟨si, h⟩
    · rw [h]; exact ⟨hn1, more, hm⟩
    · obtain ⟨hn2, more2, hm2⟩ := addInfo_nodup hn1 si
      rw [h]
      exact ⟨hn2, more ++ more2, by rw [hm2, hm, List.append_assoc]⟩

theorem addDeps_sinfos {env : Env} {ds : List (Str × Int)} {f f' : FileW} {u : Unit}
    (h : addDeps env ds f = (.ok u, f')) (hn : (f.sinfos.map StreamerInfo.name).Nodup) :
    (f'.sinfos.map StreamerInfo.name).Nodup ∧ ∃ more, f'.sinfos = f.sinfos ++ more := by
  induction ds generalizing f with
  | nil =>
    obtain ⟨-, rfl⟩ := Fs.ok_pure.1 h
    exact ⟨hn, [], (List.append_nil _).symm⟩
  | cons d ds ih =>
    unfold addDeps at h
    split at h
    · exact ih h hn
    · obtain ⟨si, f1, h0, h1⟩ := Fs.ok_bind.1 h
      have hs : f1.sinfos = f.sinfos := by
        obtain ⟨m, -, hf1⟩ := Fs.dictionary_ok h0
        rw [hf1]
      rw [Fs.bind_of_ok (addStreamerInfo_eq _ _)] at h1
      obtain ⟨hn2, more2, hm2⟩ := addInfo_nodup (hs ▸ hn) si
      obtain ⟨hn3, more3, hm3⟩ := ih h1 hn2
      refine ⟨hn3, more2 ++ more3, ?_⟩
      rw [hm3]
      show addInfo f1.sinfos si ++ more3 = _
      rw [hm2, hs, List.append_assoc]

/-- C35: in any session, and after closing, there is one record per class name, and a record once kept
stays, at its place. -/
theorem C35_once {env : Env} {path : Str} {ops : List Op} {f g : FileW} (h : Session env path ops f)
    (hl : Later env f g) : (g.sinfos.map StreamerInfo.name).Nodup ∧ f.sinfos <+: g.sinfos := by
  obtain ⟨ids, f0, hc, hb, hr⟩ := h
  obtain ⟨rfl, hlim⟩ := create_ok hc hb.end_
  have hi0 := Inv.created (ids := ids) hlim
  have hi := runs_inv hi0 hr
  have hn := (runs_sinfos hi0 hr .nil).1
  cases hl with
  | runs h1 =>
    obtain ⟨h2, more, h3⟩ := runs_sinfos hi h1 hn
    exact ⟨h2, more, h3.symm⟩
  | @close ops2 g1 _ h1 h4 =>
    obtain ⟨h2, more, h3⟩ := runs_sinfos hi h1 hn
    obtain ⟨s, i, buf, ca⟩ := (runs_inv hi h1).close h4
    have hd := ca.deps
    unfold findDeepStreamer at hd
    rw [Fs.bind_of_ok (Fs.ok_get.2 ⟨rfl, rfl⟩)] at hd
    obtain ⟨⟨ds, n⟩, _, h5, h6⟩ := Fs.ok_bind.1 hd
    obtain ⟨-, rfl⟩ := Fs.ok_lift.1 h5
    obtain ⟨_, _, h7, h8⟩ := Fs.ok_bind.1 h6
    cases Fs.ok_modify.1 h7
    have hs : g.sinfos = s := by rw [ca.file]; rfl
    obtain ⟨h9, more2, h10⟩ := addDeps_sinfos h8 h2
    rw [hs]
    refine ⟨h9, more ++ more2, ?_⟩
    have h10 : s = g1.sinfos ++ more2 := h10
    rw [h10, h3, List.append_assoc]

/-- Two registrations of one class and one of another. -/
example : ∃ f, Session demoEnv (b! "d.root")
    ([demoInfo, { demoInfo with clsver := 2 }, { demoInfo with named := { name := b! "B" } }].map
      .register) f :=
  ⟨_, 10, _, ok_pair (by decide +kernel), below2GB_iff.1 (by decide +kernel),
    runs_of_check (by decide +kernel)⟩


/-! ### C33 -/

/-- C33, writing: the object of an accepted `put` is stored as it is (the stored size is the object
size), and at any later time, whatever the decompressors do, loading the key gives what the object has
written. -/
theorem C33_stored {env : Env} {path name : Str} {ops : List Op} {obj : PutObj} {f f1 : FileW}
    {u : Unit} (h : Session env path ops f) (hput : put env name obj f = (.ok u, f1))
    (hb : f1.Below2GB) :
    ∃ k n w, f1.dir.keys = f.dir.keys ++ [k] ∧ obj.marshal (WBuffer.new k.keyLen.toNat) = .ok (n, w) ∧
      k.nBytes - k.keyLen = k.objLen ∧
      ∀ g dec, Later env f1 g → k.load dec (image g.trace) = .ok w.p := by
  obtain ⟨hi1, c, m, w, k, -, hm, hk, hd, -, -⟩ := put_inv (session_inv h) hput hb
  obtain ⟨k', n', w', hd', hm', hl', hr⟩ := C14_put h hput hb
  have : k = k' := by
    rw [hd] at hd'
    simpa using hd'
  subst this
  have hsz : k.nBytes - k.keyLen = k.objLen := by
    rw [hk]; simp only [Key.at]; omega
  refine ⟨k, n', w', hd, hm', hsz, fun g dec hl => ?_⟩
  have : k.isCompressed = false := by
    unfold Key.isCompressed
    simp [hsz]
  have hko := hi1.keys k (by rw [hd]; exact List.mem_append_right _ (List.mem_singleton.2 rfl))
  have hlo := hko.lo
  have hhi := hko.hi
  have h26 : 26 ≤ kl k.name k.title k.cls := (keyLenFor_ge _ _ _ false false).1
  have hdp := dirPos_ge path
  have hbig : kStartBigFile = 2000000000 := rfl
  have hb' : f1.header.end_ ≤ kStartBigFile := hb.1
  have e1 : k.keyLen = kl k.name k.title k.cls := by rw [hk]; rfl
  have e2 : k.nBytes = kl k.name k.title k.cls + k.buffer.length := by rw [hk]; rfl
  have hsane : k.Sane := ⟨by omega, by omega, by omega, by omega, by omega⟩
  rw [Key.load_sane hsane, this, if_neg (by decide)]
  exact hr g hl

/-- C33, reading: equal sizes mean that the stored bytes are returned, without decompression. -/
theorem C33_plain (dec : Decoders) {img data : List Byte} {k : Key} (hs : k.nBytes - k.keyLen = k.objLen)
    (hp : 0 ≤ k.seekKey) (hk : 0 ≤ k.keyLen) (hp' : InI 8 k.seekKey) (hn : InI 4 k.nBytes) (hl : k.objLen = (data.length : Int))
    (hd : data <+: img.drop (k.seekKey + k.keyLen).toNat) : k.load dec img = .ok data := by
  have : k.isCompressed = false := by unfold Key.isCompressed; simp [hs]
  unfold InI at hp' hn
  rw [show ((256 ^ 4 : Nat) : Int) = 2 ^ 32 from rfl] at hn
  rw [show ((256 ^ 8 : Nat) : Int) = 2 ^ 64 from rfl] at hp'
  rw [Key.load_sane ⟨hp, by omega, hk, by omega, by omega⟩, this, if_neg (by decide)]
  exact readAt_stored (by omega) hl hd

/-- C33, reading: with different sizes the bytes come from a decompressor; if none of them can decode
anything, a non-empty object is never returned. -/
theorem C33_packed {dec : Decoders} {img data : List Byte} {k : Key}
    (hs : k.nBytes - k.keyLen ≠ k.objLen) (hz : ∀ s, dec.zlib s = none) (hx : ∀ s, dec.lzma s = none)
    (h4 : ∀ s, dec.lz4 s = none) (h : k.load dec img = .ok data) : k.objLen = 0 := by
  have hc : k.isCompressed = true := by
    unfold Key.isCompressed
    simp only [ne_eq, decide_not, Bool.not_eq_eq_eq_not, Bool.not_true, decide_eq_false_iff_not]
    exact fun h => hs h.symm
  unfold Key.load at h
  rw [hc] at h
  split at h
  · cases h
  rw [if_pos rfl] at h
  split at h
  · cases h
  next hn =>
  obtain ⟨_, -, h⟩ := Res.bind_eq_ok.1 h
  obtain ⟨_, -, h⟩ := Res.bind_eq_ok.1 h
  obtain ⟨sr, hsr, h⟩ := Res.bind_eq_ok.1 h
  rcases Nat.eq_zero_or_pos k.objLen.toNat with h0 | h0
  · omega
  · unfold decompressPayload decompressLoop at h
    rw [if_neg (by omega)] at h
    simp only [hz, hx, h4, readExact] at h
    split at h
    · cases h
    split at h
    · cases h
    split at h
    · cases h
    split at h
    · split at h <;> cases h
    · cases h

/-- An uncompressed and a compressed key. -/
example : ∃ k k' : Key, k.nBytes - k.keyLen = k.objLen ∧ k'.nBytes - k'.keyLen ≠ k'.objLen :=
  ⟨{ nBytes := 100, keyLen := 60, objLen := 40 }, { nBytes := 80, keyLen := 60, objLen := 40 },
    by decide, by decide⟩

/-! ### C34 -/

theorem le3_toNat {n : Nat} (h : n < 2 ^ 24) :
    (UInt8.ofNat n).toNat + (UInt8.ofNat (n / 256)).toNat * 256 +
      (UInt8.ofNat (n / 65536)).toNat * 65536 = n := by
  simp only [UInt8.toNat_ofNat']
  omega

theorem Block.bytes_eq (b : Block) (rest : List Byte) : ∃ x y, b.kind.tag = [x, y] ∧
    b.bytes ++ rest = [x, y, b.method] ++ le3 (b.checksum.length + b.packed.length) ++
      le3 b.plain.length ++ (b.checksum ++ b.packed ++ rest) := by
  rcases hk : b.kind <;> exact ⟨_, _, rfl, by simp [Block.bytes, hk, BlockKind.tag]⟩

theorem Block.hdr (b : Block) (rest : List Byte) :
    ∃ h, (b.bytes ++ rest).take 9 = h ∧ (b.bytes ++ rest).drop 9 = b.checksum ++ b.packed ++ rest ∧
      9 ≤ (b.bytes ++ rest).length ∧ h.getD 0 0 = b.kind.tag.getD 0 0 ∧
      h.getD 1 0 = b.kind.tag.getD 1 0 ∧
      h.getD 6 0 = UInt8.ofNat b.plain.length ∧ h.getD 7 0 = UInt8.ofNat (b.plain.length / 256) ∧
      h.getD 8 0 = UInt8.ofNat (b.plain.length / 65536) := by
  obtain ⟨x, y, ht, hb⟩ := b.bytes_eq rest
  rw [hb, ht]
  simp only [le3]
  refine ⟨_, rfl, ?_⟩
  simp

/-- C34 for a payload of one block: what the block contains is returned.

Missing for the full property: several blocks; see `C34_zlib_blocks_fail`. -/
theorem C34_single_partial {dec : Decoders} {b : Block} (h : b.Decodes dec) :
    decompressPayload dec b.plain.length b.bytes = .ok b.plain := by
  obtain ⟨hd, h1, h2, h3, h4, h5, h6, h7, h8⟩ := b.hdr []
  rw [List.append_nil] at h1 h2 h3
  have hpos : 0 < b.plain.length := List.length_pos_iff.2 h.nonempty
  unfold decompressPayload decompressLoop
  rw [if_neg (by omega), if_neg (by omega)]
  simp only [h1, h2, h4, h5, h6, h7, h8, le3_toNat h.small, List.append_nil]
  rcases hk : b.kind with _ | _ | _
  · obtain ⟨hc, hz⟩ := h.zlib hk
    have := hz []
    rw [List.append_nil] at this
    rw [if_pos (by decide), hc, List.nil_append, this]
    simp [readExact]
  · obtain ⟨hc, hz⟩ := h.lzma hk
    have := hz []
    rw [List.append_nil] at this
    rw [if_neg (by decide), if_pos (by decide), hc, List.nil_append, this]
    simp only [readExact, Nat.le_refl, if_true, List.take_length]
    generalize b.bytes.length = m
    cases m with
    | zero => rfl
    | succ m => unfold decompressLoop; rw [if_pos (by omega)]
  · obtain ⟨hc, hz⟩ := h.lz4 hk
    rw [if_neg (by decide), if_neg (by decide), if_pos (by decide),
      if_neg (by rw [List.length_append]; omega), List.drop_append_of_le_length (by omega),
      List.drop_of_length_le (by omega), List.nil_append, hz]
    simp

/-- C34 does not hold for several blocks: two blocks compressed with zlib give an error. -/
theorem C34_zlib_blocks_fail {dec : Decoders} {a b : Block} (ha : a.Decodes dec) (hb : b.Decodes dec)
    (hka : a.kind = .zlib) (more : List Byte) :
    decompressPayload dec (a.plain ++ b.plain).length (a.bytes ++ (b.bytes ++ more)) =
      .error (.err .io) := by
  obtain ⟨hd, h1, h2, h3, h4, h5, h6, h7, h8⟩ := a.hdr (b.bytes ++ more)
  have hpos : 0 < a.plain.length := List.length_pos_iff.2 ha.nonempty
  have hposb : 0 < b.plain.length := List.length_pos_iff.2 hb.nonempty
  unfold decompressPayload decompressLoop
  rw [if_neg (by rw [List.length_append]; omega), if_neg (by omega)]
  simp only [h1, h2, h4, h5]
  obtain ⟨hc, hz⟩ := ha.zlib hka
  rw [if_pos (by rw [hka]; decide), hc, List.nil_append, hz]
  simp only [readExact, List.length_append]
  rw [if_neg (by omega)]

/-- C34 does not hold for several blocks: two blocks compressed with LZMA give an error. -/
theorem C34_lzma_blocks_fail {dec : Decoders} {a b : Block} (ha : a.Decodes dec) (hb : b.Decodes dec)
    (hka : a.kind = .lzma) (more : List Byte) :
    decompressPayload dec (a.plain ++ b.plain).length (a.bytes ++ (b.bytes ++ more)) =
      .error (.err .io) := by
  obtain ⟨hd, h1, h2, h3, h4, h5, h6, h7, h8⟩ := a.hdr (b.bytes ++ more)
  have hpos : 0 < a.plain.length := List.length_pos_iff.2 ha.nonempty
  have hposb : 0 < b.plain.length := List.length_pos_iff.2 hb.nonempty
  unfold decompressPayload decompressLoop
  rw [if_neg (by rw [List.length_append]; omega), if_neg (by omega)]
  simp only [h1, h2, h4, h5]
  obtain ⟨hc, hz⟩ := ha.lzma hka
  rw [if_neg (by rw [hka]; decide), if_pos (by rw [hka]; decide), hc, List.nil_append, hz]
  simp only [readExact, List.length_append]
  rw [if_neg (by omega)]

/-- C34 does not hold for the other algorithms of ROOT: a payload whose first block is compressed with ZSTD (`ZS`), with
the old algorithm (`CS`) or with any other than the three known ones aborts. -/
theorem C34_others_abort (dec : Decoders) {n : Nat} (hn : 0 < n) {x y : Byte} (rest : List Byte) (hl : 7 ≤ rest.length)
    (hk : ∀ k : BlockKind, k.tag ≠ [x, y]) : decompressPayload dec n (x :: y :: rest) = .error .panic := by
  have key : ∀ {u v : Byte}, [u, v] ≠ [x, y] → (x.toNat, y.toNat) ≠ (u.toNat, v.toNat) := by
    intro u v h e
    obtain ⟨e1, e2⟩ := Prod.mk.inj e
    exact h (by rw [UInt8.toNat_inj.1 e1, UInt8.toNat_inj.1 e2])
  unfold decompressPayload decompressLoop
  rw [if_neg (by omega), if_neg (by simp only [List.length_cons]; omega)]
  simp only [List.take_succ_cons, List.getD_cons_zero, List.getD_cons_succ]
  rw [if_neg (show ¬(x.toNat, y.toNat) = (0x5A, 0x4C) from key (hk .zlib)),
    if_neg (show ¬(x.toNat, y.toNat) = (0x58, 0x5A) from key (hk .lzma)),
    if_neg (show ¬(x.toNat, y.toNat) = (0x4C, 0x34) from key (hk .lz4))]

example : ∀ k : BlockKind, k.tag ≠ b! "ZS" ∧ k.tag ≠ b! "CS" := fun k => by cases k <;> decide

/-- Blocks exist: a toy decoder that takes a length byte and that many bytes. -/
example : ∃ (dec : Decoders) (a : Block), a.Decodes dec ∧ a.kind = .lzma :=
  ⟨⟨fun _ => none, fun s => some ((s.drop 1).take (s.headD 0).toNat), fun _ => none⟩,
   { kind := .lzma, method := 0, packed := [3, 1, 2, 3], plain := [1, 2, 3] },
   ⟨by decide, by decide, (fun h => by cases h), fun _ => ⟨rfl, fun _ => rfl⟩, (fun h => by cases h)⟩,
   rfl⟩

example : ∃ (dec : Decoders) (a : Block), a.Decodes dec ∧ a.kind = .zlib :=
  ⟨⟨fun s => some ((s.drop 1).take (s.headD 0).toNat), fun _ => none, fun _ => none⟩,
   { kind := .zlib, method := 8, packed := [3, 1, 2, 3], plain := [1, 2, 3] },
   ⟨by decide, by decide, fun _ => ⟨rfl, fun _ => rfl⟩, (fun h => by cases h), (fun h => by cases h)⟩,
   rfl⟩

/-! ### C45 -/

/-- C45 does not hold: whatever the file contains, a name with a semicolon is never found. -/
theorem C45_semicolon_unreadable (f : FileR) (name : Str) (h : (59 : Byte) ∈ name) :
    ∀ k, f.findKey name ≠ .ok k := by
  intro k hk
  unfold FileR.findKey at hk
  obtain ⟨n, hn, -⟩ := Res.ok_bind.1 hk
  unfold decodeNameCycle at hn
  have : 0 < name.count 59 := List.count_pos_iff.2 h
  split at hn
  · omega
  · cases hn
  · cases hn

/-- Such a name is accepted by `put`. -/
theorem C45_semicolon_accepted :
    isOk (put demoEnv (b! "a;1") (demoObj 3) demoOpen).1 = true ∧ (59 : Byte) ∈ b! "a;1" :=
  ⟨by decide +kernel, by decide⟩

end Verif
