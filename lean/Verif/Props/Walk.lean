import Verif.Lemmas.Walk
/-
C66 (a closed file is a chain of records).
-/
namespace Verif

/-- C66: walking through a closed file from byte 100, each record giving the position of the next, meets the
record of the top directory, one record for each object and basket that was stored, in the order of the calls,
the list of the keys, the list of the classes, and the free segments, and then the file ends, where its header
says.  The header has the positions and sizes of the last two. -/
theorem C66_walk {env : Env} {path : Str} {ids : Nat} {ops : List Op} {f0 f f' : FileW}
    (hw : Written env path ids ops f0 f f') :
    ∃ top rs keys infos free,
      Walk (image f'.trace) 100 (top :: (rs ++ [keys, infos, free])) f'.header.end_ ∧
      ((image f'.trace).length : Int) = f'.header.end_ ∧
      top.Labelled (b! "TFile") path [] ∧
      Pairs StoredItem.Is (storedItems env f0 ops) rs ∧
      keys.Labelled (b! "TDirectory") path [] ∧
      infos.Labelled (b! "TList") (b! "StreamerInfo") (b! "Doubly linked list") ∧
      f'.header.seekInfo = infos.key.seekKey ∧ f'.header.nBytesInfo = infos.key.nBytes ∧
      free.Labelled (b! "TFile") path [] ∧
      f'.header.seekFree = free.key.seekKey ∧ f'.header.nBytesFree = free.key.nBytes ∧
      f'.dir.seekKeys = keys.key.seekKey ∧ f'.dir.nBytesKeys = keys.key.nBytes ∧
      ∀ k ∈ f'.dir.keys, ∃ r ∈ rs, r.key = k := by
  obtain ⟨rfl, hlim⟩ := create_ok hw.create hw.small.end_
  have hi0 := Inv.created (path := path) (ids := ids) hlim
  have hi := runs_inv hi0 hw.runs
  obtain ⟨s, i, buf, hc⟩ := hi.close hw.close
  obtain ⟨ks, hk⟩ := runs_records hi0 (f0 := createdFile path ids) (env := env)
    ⟨.nil, (fun k hk => by cases hk), .nil, (fun k hk => by cases hk)⟩ hw.runs
  have hd := dirPos_ge path
  have hlo := hi.lo
  have hlen := hc.image_length hi
  have hb := hw.close.2.end_
  obtain ⟨e0, e1, e2, e3⟩ := hc.ends hi
  obtain ⟨n1, n2, n3, n4, n5⟩ := hc.names hi
  have hkn := keysLen_ge hi.closable.keys
  -- the records of the calls
  have hin := hk.inFile hi (Later.close .nil hw.close) (by omega) (by omega)
  -- the other records
  have htop : ((dirKey path).recordIn (image f'.trace)).In (image f'.trace) := by
    have h1 : Stored (image f'.trace) 100 ((dirKey path).enc packedNow) :=
      (Stored.append.1 (hc.stored_dir hi)).1
    have h2 : dirPos path = 100 + (kl path [] (b! "TFile") + dirNameLen path) := rfl
    have h3 : 0 ≤ dirNameLen path := by
      have := tstringSizeof_pos path
      have := tstringSizeof_pos []
      unfold dirNameLen
      omega
    exact Key.recordIn_in (by omega) (by omega) h1 (by omega) (by omega)
  have hkeys : ((keysKey f f.dir).recordIn (image f'.trace)).In (image f'.trace) := by
    have h1 := hc.stored hi (w := ⟨(keysKey f f.dir).seekKey.toNat, (keysKey f f.dir).enc packedNow⟩)
      (Or.inl (List.mem_cons_self ..))
    have h2 : (closing1 f).header.end_ =
        f.header.end_ + (kl f.dir.name f.dir.title (b! "TDirectory") + keysLen f.dir) := by rw [n3, n4]; exact hc.end1
    exact Key.recordIn_in (by omega) (by omega) h1 (by omega) (by omega)
  have hinfo : ((infoKey (closing1 f) buf).recordIn (image f'.trace)).In (image f'.trace) := by
    have h1 := hc.stored hi (w := ⟨(infoKey (closing1 f) buf).seekKey.toNat, (infoKey (closing1 f) buf).enc packedNow⟩)
      (Or.inr (List.mem_append_left _ (List.mem_cons_self ..)))
    have h2 : (closing2 f s i buf).header.end_ = (closing1 f).header.end_ +
        (kl infoName listTitle (b! "TList") + asI 4 buf.length) := rfl
    have h3 := asI4_nat hc.short
    exact Key.recordIn_in (by omega) (by omega) h1 (by omega) (by omega)
  have hfree : ((freeKey (closing2 f s i buf)).recordIn (image f'.trace)).In (image f'.trace) := by
    have h1 := hc.stored hi (w := ⟨(freeKey (closing2 f s i buf)).seekKey.toNat,
      (freeKey (closing2 f s i buf)).enc packedNow⟩) (Or.inr (List.mem_append_right _ (List.mem_cons_self ..)))
    have h2 : f'.header.end_ = (closing2 f s i buf).header.end_ +
        (kl (closing2 f s i buf).dir.name (closing2 f s i buf).dir.title (b! "TFile") + 10) := by
      rw [n1, n2]; exact hc.end3
    exact Key.recordIn_in (by omega) (by omega) h1 (by omega) (by omega)
  have hhdr := hc.header hi
  have hend1 := hc.end1
  have hend2 := hc.end2
  have hend3 := hc.end3
  have hdir : f'.dir = closedDir f := by rw [hc.file]; rfl
  refine ⟨(dirKey path).recordIn (image f'.trace), ks.map (·.recordIn (image f'.trace)),
    (keysKey f f.dir).recordIn (image f'.trace), (infoKey (closing1 f) buf).recordIn (image f'.trace),
    (freeKey (closing2 f s i buf)).recordIn (image f'.trace), ?_, ?_, ⟨rfl, rfl, rfl⟩, ?_, ?_, ⟨rfl, rfl, rfl⟩, ?_, ?_,
    ?_, ?_, ?_, ?_, ?_, ?_⟩
  · refine .step htop rfl (Walk.append (b := f.header.end_) ?_ ?_)
    · refine Walk.of_tiles ?_ fun k hk' => (hin k hk').1
      have : (100 : Int) + ((dirKey path).recordIn (image f'.trace)).key.nBytes = dirPos path + 60 := by
        show (100 : Int) + (dirKeyLen path + (dirNameLen path + 60)) = 100 + (dirKeyLen path + dirNameLen path) + 60
        omega
      rw [this]
      exact hk.tiles
    · refine .step hkeys rfl (.step hinfo ?_ (.step hfree ?_ ?_))
      · show (closing1 f).header.end_ = f.header.end_ + (kl f.dir.name f.dir.title (b! "TDirectory") + keysLen f.dir)
        rw [n3, n4]; exact hend1
      · show (closing1 f).header.end_ + (infoKeyLen + asI 4 buf.length) = _
        refine congrArg (· + (infoKeyLen + asI 4 (buf.length : Int))) ?_
        show (closing1 f).header.end_ = f.header.end_ + (kl f.dir.name f.dir.title (b! "TDirectory") + keysLen f.dir)
        rw [n3, n4]; exact hend1
      · have : f.header.end_ + ((keysKey f f.dir).recordIn (image f'.trace)).key.nBytes +
            ((infoKey (closing1 f) buf).recordIn (image f'.trace)).key.nBytes +
            ((freeKey (closing2 f s i buf)).recordIn (image f'.trace)).key.nBytes = f'.header.end_ := by
          show f.header.end_ + (kl f.dir.name f.dir.title (b! "TDirectory") + keysLen f.dir) +
            (infoKeyLen + asI 4 buf.length) +
            (kl (closing2 f s i buf).dir.name (closing2 f s i buf).dir.title (b! "TFile") + 10) = _
          rw [n1, n2, n3, n4, asI4_nat hc.short]
          omega
        rw [this]
        exact .done
  · have hs : Session env path ops f := ⟨ids, _, hw.create, hw.small, hw.runs⟩
    obtain ⟨pre, d, post, ht, -, hwi, -, hdw, -⟩ := C13_closed hs hw.close
    have := image_length_le f'.trace f'.header.end_.toNat fun w hw' => by
      rw [ht] at hw'
      have hcase : w.InHeader ∨ w.Within 100 f'.header.end_ ∨ w = d := by
        rcases List.mem_append.1 hw' with h | h
        · rcases hwi w (List.mem_append_left _ h) with h | h
          · exact Or.inl h
          · exact Or.inr (Or.inl h)
        · rcases List.mem_cons.1 h with h | h
          · exact Or.inr (Or.inr h)
          · rcases hwi w (List.mem_append_right _ h) with h | h
            · exact Or.inl h
            · exact Or.inr (Or.inl h)
      rcases hcase with ⟨h1, h2⟩ | ⟨h1, h2⟩ | rfl
      · omega
      · omega
      · have h2 := hdw.2
        have : f.bodyStart = dirPos path + 60 := by unfold FileW.bodyStart; rw [hi.hdr]; rfl
        omega
    omega
  · refine hk.items.map_right fun a k hk' ⟨q1, q2, q3, q4⟩ => ⟨⟨q1, q2, q3⟩, ?_, ?_⟩
    · exact congrArg Key.seekPdir (hk.ok k hk').form
    · rw [(hin k hk').2]; exact q4
  · exact ⟨rfl, n3, n4⟩
  · rw [hhdr]; rfl
  · rw [hhdr]
    show infoKeyLen + (buf.length : Int) = infoKeyLen + asI 4 buf.length
    rw [asI4_nat hc.short]
  · exact ⟨rfl, n1, n2⟩
  · rw [hhdr]; rfl
  · rw [hhdr]
    show kl path [] (b! "TFile") + 10 = kl (closing2 f s i buf).dir.name (closing2 f s i buf).dir.title (b! "TFile") + 10
    rw [n1, n2]
  · rw [hdir]; rfl
  · rw [hdir]; rfl
  · intro k hk'
    rw [hdir] at hk'
    exact ⟨_, List.mem_map_of_mem (hk.listed k hk'), rfl⟩

/-- C66, no other way: whoever walks from the same byte to the same end meets records at the same places and of
the same sizes. -/
theorem C66_only {file : List Byte} {a b : Int} {rs rs' : List FileRecord} (h : Walk file a rs b)
    (h' : Walk file a rs' b) : rs.map (fun r => (r.key.seekKey, r.key.nBytes)) =
      rs'.map (fun r => (r.key.seekKey, r.key.nBytes)) := h.unique h'

/-- C66, what is listed is there: the keys of the file when it is opened are those of records met on the walk. -/
theorem C66_listed {env : Env} {path : Str} {ids : Nat} {ops : List Op} {f0 f f' : FileW}
    (hw : Written env path ids ops f0 f f') (hh : Holds env path ops f0 f') (dec : Decoders) (fuel : Nat)
    (hfuel : 3 ≤ fuel) :
    ∃ r rs, openFile dec fuel (image f'.trace) = .ok r ∧ Walk (image f'.trace) 100 rs r.header.end_ ∧
      ∀ k ∈ r.dir.keys, ∃ q ∈ rs, q.key.seekKey = k.seekKey ∧ q.key.nBytes = k.nBytes ∧ q.key.objLen = k.objLen ∧
        q.key.keyLen = k.keyLen ∧ q.key.cycle = k.cycle ∧ q.Labelled q.key.cls k.name k.title ∧
        k.cls = shownClass q.key.cls := by
  obtain ⟨top, rs, keys, infos, free, h1, -, -, -, -, -, -, -, -, -, -, -, -, h2⟩ := C66_walk hw
  obtain ⟨-, -, hi, -, s, i, buf, hc, -, -, -, hop⟩ := hw.opened hh
  refine ⟨_, _, hop dec fuel hfuel, h1, fun k hk => ?_⟩
  obtain ⟨k0, hk0, rfl⟩ := List.mem_map.1 hk
  have hdir : f'.dir = closedDir f := by rw [hc.file]; rfl
  obtain ⟨q, hq, rfl⟩ := h2 k0 (by rw [hdir]; exact hk0)
  exact ⟨q, List.mem_cons_of_mem _ (List.mem_append_left _ hq), rfl, rfl, rfl, rfl, rfl, ⟨rfl, rfl, rfl⟩, rfl⟩

/-- C66, before `close`, as for a file that is to be recovered: if the last thing that was stored is not empty, the
walk meets the record of the directory and one record for each object and basket, up to the end of the file. -/
theorem C66_open {env : Env} {path : Str} {ids : Nat} {ops : List Op} {f0 f : FileW}
    (hcr : createFile (FileW.initial path ids) = (.ok (), f0)) (hsm : f0.Below2GB) (hr : Runs env f0 ops f)
    {i : StoredItem} (hlast : (storedItems env f0 ops).getLast? = some i) (hne : ∀ len bs, i.bytes len bs → bs ≠ []) :
    ∃ top rs, Walk (image f.trace) 100 (top :: rs) (image f.trace).length ∧ top.Labelled (b! "TFile") path [] ∧
      Pairs StoredItem.Is (storedItems env f0 ops) rs := by
  obtain ⟨rfl, hlim⟩ := create_ok hcr hsm.end_
  have hi0 := Inv.created (path := path) (ids := ids) hlim
  have hi := runs_inv hi0 hr
  obtain ⟨ks, hk⟩ := runs_records hi0 (f0 := createdFile path ids) (env := env)
    ⟨.nil, (fun k hk => by cases hk), .nil, (fun k hk => by cases hk)⟩ hr
  have hd := dirPos_ge path
  have hlo := hi.lo
  have hhi := hi.good.hi
  -- the last record reaches the end of the file
  obtain ⟨k, hkl, hki⟩ := hk.items.last hlast
  have hkm := List.mem_of_getLast? hkl
  obtain ⟨hform, -, hbody⟩ := hk.ok k hkm
  have hkl1 : k.keyLen = kl k.name k.title k.cls := congrArg Key.keyLen hform
  have hnb : k.nBytes = kl k.name k.title k.cls + k.buffer.length := congrArg Key.nBytes hform
  have h26 : 26 ≤ kl k.name k.title k.cls := (keyLenFor_ge _ _ _ false false).1
  have hke := hk.tiles.last hkl
  have hks := (hk.tiles.mem hkm).1
  have s1 := Later.stored hi (Later.runs (ops := []) (g := f) .nil) (env := env) hbody (by
    show dirPos path + 60 ≤ (((k.seekKey + k.keyLen).toNat : Nat) : Int); omega)
  have hge := s1.le (hne _ _ hki.2.2.2)
  have hge' : (k.seekKey + k.keyLen).toNat + k.buffer.length ≤ (image f.trace).length := hge
  obtain ⟨ws, t, pw, pq⟩ := hi.records
  have hle : (image f.trace).length ≤ f.header.end_.toNat := image_length_le _ _ fun w hw' => by
    rw [t] at hw'
    rcases List.mem_append.1 hw' with h | h
    · simp only [List.mem_cons, List.not_mem_nil, or_false] at h
      rcases h with rfl | rfl
      · simp only [List.length_replicate]; omega
      · have hr' := createdHeader_inRange (path := path) (by omega)
        have := (header_inHeader hr'.1).2
        omega
    · have := (pq.mem h).2
      omega
  have hlen : ((image f.trace).length : Int) = f.header.end_ := by omega
  have hb : f.header.end_ ≤ 2000000000 := hhi
  have hin := hk.inFile hi (Later.runs (ops := []) (g := f) (env := env) .nil) (by omega) (by omega)
  have htop : ((dirKey path).recordIn (image f.trace)).In (image f.trace) := by
    have h1 : Stored (image f.trace) 100 ((dirKey path).enc packedNow) := by
      have e : f.trace = [⟨0, List.replicate 100 0⟩, ⟨0, (createdHeader path).enc⟩] ++
          (⟨100, (dirKey path).enc packedNow⟩ : DiskWrite) ::
          (⟨((dirKey path).seekKey + (dirKey path).keyLen).toNat, (dirKey path).buffer⟩ :: ws) := t
      rw [e]
      refine Stored.image (w := ⟨100, (dirKey path).enc packedNow⟩) fun v hv => ?_
      have hpw := pq.pairwise
      have := (List.pairwise_cons.1 hpw).1 v hv
      exact Or.inl this
    have h2 : dirPos path = 100 + (kl path [] (b! "TFile") + dirNameLen path) := rfl
    have h3 : 0 ≤ dirNameLen path := by
      have := tstringSizeof_pos path
      have := tstringSizeof_pos []
      unfold dirNameLen
      omega
    exact Key.recordIn_in (by omega) (by omega) h1 (by omega) (by omega)
  refine ⟨(dirKey path).recordIn (image f.trace), ks.map (·.recordIn (image f.trace)), ?_, ⟨rfl, rfl, rfl⟩, ?_⟩
  · rw [hlen]
    refine .step htop rfl ?_
    have : (100 : Int) + ((dirKey path).recordIn (image f.trace)).key.nBytes = dirPos path + 60 := by
      show (100 : Int) + (dirKeyLen path + (dirNameLen path + 60)) = 100 + (dirKeyLen path + dirNameLen path) + 60
      omega
    rw [this]
    exact Walk.of_tiles hk.tiles fun k hk' => (hin k hk').1
  · refine hk.items.map_right fun a k hk' ⟨q1, q2, q3, q4⟩ => ⟨⟨q1, q2, q3⟩, ?_, ?_⟩
    · exact congrArg Key.seekPdir (hk.ok k hk').form
    · rw [(hin k hk').2]; exact q4

/-- The session of `Spec/Demo.lean`: two objects and a basket. -/
example : ∃ top rs keys infos free,
    Walk (image demoClosed.trace) 100 (top :: (rs ++ [keys, infos, free])) demoClosed.header.end_ ∧
    rs.map (fun r => (r.key.cls, r.key.name)) = [(b! "A", b! "o"), (b! "TBasket", b! "br"), (b! "A", b! "o")] := by
  obtain ⟨top, rs, keys, infos, free, h, -, -, hp, -⟩ := C66_walk demo_written
  refine ⟨top, rs, keys, infos, free, h, ?_⟩
  have e : (storedItems demoEnv (createFile (FileW.initial (b! "d.root") 10)).2 demoOps).map (fun i => (i.cls, i.name)) =
      [(b! "A", b! "o"), (b! "TBasket", b! "br"), (b! "A", b! "o")] := by decide +kernel
  rw [← e]
  exact hp.map_eq fun a b h => by rw [h.labels.1, h.labels.2.1]

example (dec : Decoders) : ∃ r rs, openFile dec 3 (image demoClosed.trace) = .ok r ∧
    Walk (image demoClosed.trace) 100 rs r.header.end_ := by
  obtain ⟨r, rs, h1, h2, -⟩ := C66_listed demo_written demo_holds dec 3 (Nat.le_refl _)
  exact ⟨r, rs, h1, h2⟩

/-- The same session before it is closed. -/
example : ∃ top rs, Walk (image demoOpen.trace) 100 (top :: rs) (image demoOpen.trace).length ∧ rs.length = 3 := by
  have hw := demo_written
  have hl : (storedItems demoEnv (createFile (FileW.initial (b! "d.root") 10)).2 demoOps).getLast? =
      some ⟨b! "A", b! "o", b! "t", fun keyLen bs =>
        ∃ n w, (demoObj 7).marshal (WBuffer.new keyLen.toNat) = .ok (n, w) ∧ w.p = bs⟩ := rfl
  obtain ⟨top, rs, h, -, hp⟩ := C66_open hw.create hw.small hw.runs hl (by
    rintro len bs ⟨n, w, hm, rfl⟩
    have hwr : Writes (demoObj 7).marshal (encI 4 7) 4 := Writes.counted (Writes.bytes _)
    rw [hwr (WBuffer.new len.toNat) rfl] at hm
    injection hm with hm
    injection hm with _ hm
    rw [← hm]
    exact (by decide : ([] ++ encI 4 7 : List Byte) ≠ []))
  exact ⟨top, rs, h, hp.length_eq.symm.trans (by decide +kernel)⟩

end Verif
