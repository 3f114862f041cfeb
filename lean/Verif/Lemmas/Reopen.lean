import Verif.Lemmas.Infos
namespace Verif

/-! ### Reading from the image -/

/-- Reading more than what is known to be stored. -/
theorem readAt_more {img : List Byte} {pos len : Int} {bs : List Byte} (hp : 0 ≤ pos)
    (hl : (bs.length : Int) ≤ len) (hi : pos + len ≤ img.length) (h : Stored img pos.toNat bs) :
    ∃ rest, readAt img pos len = .ok (bs ++ rest) ∧ ((bs ++ rest).length : Int) = len := by
  unfold readAt
  rw [if_neg (by omega), if_neg (by omega), if_pos (by omega)]
  obtain ⟨t, ht⟩ := h
  refine ⟨t.take (len.toNat - bs.length), ?_, ?_⟩
  · rw [← ht, List.take_append, List.take_of_length_le (l := bs) (by omega)]
  · have : (bs ++ t).length = img.length - pos.toNat := by rw [ht, List.length_drop]
    simp only [List.length_append, List.length_take] at *
    omega

/-- A write among others that follow each other is still there if what comes later is elsewhere. -/
theorem Placed.stored {pre ws post : List DiskWrite} {lo hi : Int} (hp : Placed lo ws hi)
    {w : DiskWrite} (hw : w ∈ ws)
    (hpost : ∀ v ∈ post, w.data ≠ [] → Apart w.pos w.data.length v.pos v.data.length) :
    Stored (image (pre ++ ws ++ post)) w.pos w.data := by
  by_cases hd : w.data = []
  · rw [hd]; exact Stored.nil _ _
  obtain ⟨a, b, rfl⟩ := List.append_of_mem hw
  have e : pre ++ (a ++ w :: b) ++ post = (pre ++ a) ++ w :: (b ++ post) := by simp
  rw [e]
  refine Stored.image fun v hv => ?_
  rcases List.mem_append.1 hv with hv | hv
  · have h1 := hp.pairwise
    rw [List.pairwise_append] at h1
    have := (List.pairwise_cons.1 h1.2.1).1 v hv
    exact Or.inl this
  · exact hpost v hv hd

section
variable {env : Env} {path : Str} {f f' : FileW} {s : List StreamerInfo} {i : Nat} {buf : List Byte}

/-- The writes of a closed file. -/
theorem ClosedAs.trace (hc : ClosedAs env path f f' s i buf) :
    f'.trace = f.trace ++ (closingRecords f s i buf).1 ++ [dirWrite f] ++ (closingRecords f s i buf).2 ++
      [⟨0, List.replicate 100 0⟩, ⟨0, f'.header.enc⟩] := by
  rw [hc.file, closedFile_trace]; rfl

theorem ClosedAs.header_end (hc : ClosedAs env path f f' s i buf) :
    ∀ v ∈ ([⟨0, List.replicate 100 0⟩, ⟨0, f'.header.enc⟩] : List DiskWrite),
      v.pos + v.data.length ≤ 100 := by
  have hl := FileHeader.enc_length hc.range
  rw [hc.narrow] at hl
  intro v hv
  simp only [List.mem_cons, List.not_mem_nil, or_false] at hv
  rcases hv with rfl | rfl
  · simp
  · simp only [hl]; decide

theorem ClosedAs.stored (hi : Inv path f) (hc : ClosedAs env path f f' s i buf) {w : DiskWrite}
    (hw : w ∈ (closingRecords f s i buf).1 ∨ w ∈ (closingRecords f s i buf).2) :
    Stored (image f'.trace) w.pos w.data := by
  have hd := dirPos_ge path
  have hlo := hi.lo
  have hp := hc.placed hi
  have hdw := dirWrite_eq hi
  have hh := hc.header_end
  rw [hc.trace]
  rcases hw with hw | hw
  · have h1 := hp.pairwise
    rw [List.pairwise_append] at h1
    have hw1 := (hp.mem (List.mem_append_left _ hw)).1
    have e : f.trace ++ (closingRecords f s i buf).1 ++ [dirWrite f] ++ (closingRecords f s i buf).2 ++
      [⟨0, List.replicate 100 0⟩, ⟨0, f'.header.enc⟩] = f.trace ++ (closingRecords f s i buf).1 ++
      ([dirWrite f] ++ (closingRecords f s i buf).2 ++
        [⟨0, List.replicate 100 0⟩, ⟨0, f'.header.enc⟩]) := by simp
    rw [e]
    have hp1 : Placed f.header.end_ (closingRecords f s i buf).1
        ((closing1 f).header.end_ + f'.header.end_) := by
      have hn : f.dir.name = path := by rw [hi.dir]; rfl
      have ht : f.dir.title = [] := by rw [hi.dir]; rfl
      have kb := hi.keysBytes_le
      have e1 := hc.end1
      have h0 := hp.le
      refine Placed.mono (Key.placed_enc (by omega)) ?_
      rw [hn, ht]
      omega
    refine hp1.stored hw fun v hv _ => ?_
    rcases List.mem_append.1 hv with hv | hv
    · rcases List.mem_append.1 hv with hv | hv
      · rw [List.mem_singleton] at hv
        subst hv
        right; omega
      · left; exact h1.2.2 _ hw _ hv
    · have := hh v hv
      right; omega
  · have hw1 := (hp.mem (List.mem_append_right _ hw)).1
    obtain ⟨a, b, hab⟩ := List.append_of_mem hw
    have hq : (closingRecords f s i buf).2.Pairwise fun a b => a.pos + a.data.length ≤ b.pos := by
      have := hp.pairwise
      rw [List.pairwise_append] at this
      exact this.2.1
    rw [hab] at hq ⊢
    have e : f.trace ++ (closingRecords f s i buf).1 ++ [dirWrite f] ++ (a ++ w :: b) ++
      [⟨0, List.replicate 100 0⟩, ⟨0, f'.header.enc⟩] = (f.trace ++ (closingRecords f s i buf).1 ++
        [dirWrite f] ++ a) ++ w :: (b ++ [⟨0, List.replicate 100 0⟩, ⟨0, f'.header.enc⟩]) := by simp
    rw [e]
    refine Stored.image fun v hv => ?_
    rcases List.mem_append.1 hv with hv | hv
    · rw [List.pairwise_append] at hq
      exact Or.inl ((List.pairwise_cons.1 hq.2.1).1 v hv)
    · have := hh v hv
      right; omega

/-- The final header. -/
theorem ClosedAs.stored_header (hc : ClosedAs env path f f' s i buf) :
    Stored (image f'.trace) 0 f'.header.enc := by
  rw [hc.trace]
  have e : f.trace ++ (closingRecords f s i buf).1 ++ [dirWrite f] ++ (closingRecords f s i buf).2 ++
      [⟨0, List.replicate 100 0⟩, ⟨0, f'.header.enc⟩] = (f.trace ++ (closingRecords f s i buf).1 ++
      [dirWrite f] ++ (closingRecords f s i buf).2 ++ [⟨0, List.replicate 100 0⟩]) ++
      ⟨0, f'.header.enc⟩ :: [] := by simp
  rw [e]
  exact Stored.image (w := ⟨0, f'.header.enc⟩) (by simp)

/-- The key of the directory, the name of the file and the directory record. -/
theorem ClosedAs.stored_dir (hi : Inv path f) (hc : ClosedAs env path f f' s i buf) :
    Stored (image f'.trace) 100 ((dirKey path).enc packedNow ++ (encStr path ++ (encStr [] ++
      (closedDir f).enc packedNow packedNow))) := by
  have hd := dirPos_ge path
  have hlo := hi.lo
  have hp := hc.placed hi
  have hdw := dirWrite_eq hi
  have hh := hc.header_end
  obtain ⟨ws, t, pw, pq⟩ := hi.records
  have hkl : (((dirKey path).enc packedNow).length : Int) = dirKeyLen path :=
    (Key.at_enc_length path [] (b! "TFile") 1 (dirNameLen path + 60) 100 0
      (dirPayload path (createdDir path))).trans (Int.sub_zero _)
  have hk26 : 26 ≤ dirKeyLen path := (keyLenFor_ge path [] (b! "TFile") false false).1
  have hnl : ((encStr path ++ encStr []).length : Int) = dirNameLen path := by
    unfold dirNameLen
    rw [tstringSizeof_eq, tstringSizeof_eq, List.length_append, Int.natCast_add]
  have hpos : dirPos path = 100 + (dirKeyLen path + dirNameLen path) := rfl
  -- what comes after the directory has been created
  have hafter : ∀ v ∈ ws ++ (closingRecords f s i buf).1 ++ (closingRecords f s i buf).2,
      dirPos path + 60 ≤ v.pos := by
    intro v hv
    rcases List.mem_append.1 hv with hv | hv
    · rcases List.mem_append.1 hv with hv | hv
      · exact (pw.mem hv).1
      · have := (hp.mem (List.mem_append_left _ hv)).1; omega
    · have := (hp.mem (List.mem_append_right _ hv)).1; omega
  have w2 : (dirKey path).twoWrites ((dirKey path).enc packedNow) =
      [⟨100, (dirKey path).enc packedNow⟩,
       ⟨(100 + dirKeyLen path).toNat, dirPayload path (createdDir path)⟩] := rfl
  have htr : f'.trace = [⟨0, List.replicate 100 0⟩, ⟨0, (createdHeader path).enc⟩] ++
      ⟨100, (dirKey path).enc packedNow⟩ ::
      (⟨(100 + dirKeyLen path).toNat, dirPayload path (createdDir path)⟩ ::
      (ws ++ (closingRecords f s i buf).1 ++ dirWrite f :: ((closingRecords f s i buf).2 ++
      [⟨0, List.replicate 100 0⟩, ⟨0, f'.header.enc⟩]))) := by
    rw [hc.trace, t, w2]; simp
  have hsplit : ∀ v ∈ ws ++ (closingRecords f s i buf).1 ++ dirWrite f :: ((closingRecords f s i buf).2 ++
      [⟨0, List.replicate 100 0⟩, ⟨0, f'.header.enc⟩]),
      dirPos path ≤ v.pos ∨ v.pos + v.data.length ≤ 100 := by
    intro v hv
    rcases List.mem_append.1 hv with hv | hv
    · have := hafter v (List.mem_append_left _ hv); omega
    · rcases List.mem_cons.1 hv with rfl | hv
      · omega
      · rcases List.mem_append.1 hv with hv | hv
        · have := hafter v (List.mem_append_right _ hv); omega
        · exact Or.inr (hh v hv)
  rw [Stored.append]
  refine ⟨?_, ?_⟩
  · rw [htr]
    refine Stored.image (w := ⟨100, (dirKey path).enc packedNow⟩) fun v hv => ?_
    rcases List.mem_cons.1 hv with rfl | hv
    · left; show 100 + ((dirKey path).enc packedNow).length ≤ (100 + dirKeyLen path).toNat; omega
    · rcases hsplit v hv with h | h
      · have : 0 ≤ dirNameLen path := by omega
        left; show 100 + ((dirKey path).enc packedNow).length ≤ _; omega
      · right; show _ ≤ 100; exact h
  · rw [← List.append_assoc, Stored.append]
    refine ⟨?_, ?_⟩
    · rw [htr, show ∀ (a : List DiskWrite) x y b, a ++ x :: y :: b = (a ++ [x, y]) ++ b by simp,
        image_append]
      refine Stored.foldl ?_ fun v hv => ?_
      · rw [show ∀ (a : List DiskWrite) x y, a ++ [x, y] = (a ++ [x]) ++ [y] by simp, image_append]
        have := Stored.written (image ([⟨0, List.replicate 100 0⟩, ⟨0, (createdHeader path).enc⟩] ++
          [⟨100, (dirKey path).enc packedNow⟩]))
          ⟨(100 + dirKeyLen path).toNat, dirPayload path (createdDir path)⟩
        have e : dirPayload path (createdDir path) = encStr path ++ encStr [] ++
            (createdDir path).enc packedNow packedNow := by simp [dirPayload]
        have := (Stored.append.1 (e ▸ this : Stored _ _ (_ ++ _))).1
        rw [show 100 + ((dirKey path).enc packedNow).length = (100 + dirKeyLen path).toNat by omega,
          e]
        exact this
      · rcases hsplit v hv with h | h
        · left; omega
        · right; omega
    · have epos : 100 + ((dirKey path).enc packedNow).length + (encStr path ++ encStr []).length =
          (dirWrite f).pos := by omega
      rw [epos]
      have htr2 : f'.trace = (f.trace ++ (closingRecords f s i buf).1) ++ dirWrite f ::
          ((closingRecords f s i buf).2 ++ [⟨0, List.replicate 100 0⟩, ⟨0, f'.header.enc⟩]) := by
        rw [hc.trace]; simp
      rw [htr2]
      refine Stored.image (w := dirWrite f) fun v hv => ?_
      rcases List.mem_append.1 hv with hv | hv
      · have := hafter v (List.mem_append_right _ hv); left; omega
      · have := hh v hv; right; omega

theorem ClosedAs.names (hi : Inv path f) (_ : ClosedAs env path f f' s i buf) :
    (closing2 f s i buf).dir.name = path ∧ (closing2 f s i buf).dir.title = [] ∧
      f.dir.name = path ∧ f.dir.title = [] ∧ f.dir.seekDir = 100 := by
  have hn : f.dir.name = path := by rw [hi.dir]; rfl
  have ht : f.dir.title = [] := by rw [hi.dir]; rfl
  exact ⟨hn, ht, hn, ht, hi.seekDir⟩

/-- The closed file has all its bytes. -/
theorem ClosedAs.image_length (hi : Inv path f) (hc : ClosedAs env path f f' s i buf) :
    f'.header.end_ ≤ (image f'.trace).length := by
  have hd := dirPos_ge path
  have hlo := hi.lo
  have hp := hc.placed hi
  have h0 := hp.le
  obtain ⟨n1, n2, -⟩ := hc.names hi
  have key := hc.stored hi (w := ⟨((freeKey (closing2 f s i buf)).seekKey +
    (freeKey (closing2 f s i buf)).keyLen).toNat, (freeKey (closing2 f s i buf)).buffer⟩)
    (Or.inr (List.mem_append_right _ (List.mem_cons_of_mem _ (List.mem_singleton.2 rfl))))
  have hlen : (freeKey (closing2 f s i buf)).buffer.length = 10 := freeEnc_length _ _ (Int.le_refl _)
  have := key.le (by intro h; have h' := congrArg List.length h; simp only [hlen] at h'; cases h')
  have e : (freeKey (closing2 f s i buf)).seekKey + (freeKey (closing2 f s i buf)).keyLen =
    (closing2 f s i buf).header.end_ + kl path [] (b! "TFile") := by
    show (closing2 f s i buf).header.end_ + kl (closing2 f s i buf).dir.name
      (closing2 f s i buf).dir.title (b! "TFile") = _
    rw [n1, n2]
  have e3 := hc.end3
  simp only [hlen, e] at this
  omega
end

end Verif
