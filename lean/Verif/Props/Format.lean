import Verif.Lemmas.Format
import Verif.Props.TreeSession
/-
C64: the records of trees and of the classes of a file are what ROOT's format asks for: byte counts, versions,
positions of objects and classes, and the members of each class in the order, with the types and with the sizes that
the description of the class gives.
-/
namespace Verif

theorem plain_of {t : TreeData} {bs : List PlacedBranch} {nb : PlacedBranch → Nat} (hn : t.named.Fits)
    (h : PlacedOk bs nb) (hio : ∀ b ∈ bs, b.branch.data.iobits = 0) (ht : t.iobits = 0)
    (hc : t.clusterRanges = [] ∧ t.clusterSizes = []) : t.Plain (bs.map fun b => (b, nb b)) := by
  refine ⟨hn, ?_, by rw [List.length_map]; exact h.few, ?_, hc, ht⟩
  · intro p hp
    obtain ⟨b, hb, rfl⟩ := List.mem_map.1 hp
    refine ⟨h.storable b hb, hio b hb, ?_⟩
    have : b.addrs.Nodup := (List.pairwise_flatMap.1 h.distinct).1 b hb
    exact (List.nodup_cons.1 this).1
  · refine Nat.lt_of_le_of_lt ?_ h.fewLeaves
    rw [List.flatMap_map]
    clear h hio
    induction bs with
    | nil => exact Nat.le_refl _
    | cons b bs ih =>
      rw [List.flatMap_cons, List.flatMap_cons, List.length_append, List.length_append]
      have : (PlacedBranch.leaves b).length ≤ b.leafAddrs.length := by
        unfold PlacedBranch.leaves; rw [List.length_zip]; exact Nat.min_le_right _ _
      exact Nat.add_le_add this ih

theorem map_pair_fst {α β} (f : α → β) (l : List α) : (l.map fun a => (a, f a)).map (·.1) = l := by
  rw [List.map_map]; exact List.map_id' l

/-- C64, trees: the record of any tree whose branches can be stored (C32), with no clusters and no bits of
features, is the one of the format: if one of both is shorter than 2^30 bytes with its key, they are the same. -/
theorem C64_tree_record_partial (t : TreeData) (bs : List PlacedBranch) (nb : PlacedBranch → Nat) (hn : t.named.Fits)
    (h : PlacedOk bs nb) (hio : ∀ b ∈ bs, b.branch.data.iobits = 0) (ht : t.iobits = 0)
    (hc : t.clusterRanges = [] ∧ t.clusterSizes = []) (keyLen : Nat) :
    ∃ bytes m', t.part (bs.map fun b => (b, nb b)) keyLen Marks.empty = some (bytes, m') ∧
      (keyLen + bytes.length < 2 ^ 30 →
        ∃ w, t.marshal bs (WBuffer.new keyLen) = .ok (bytes.length, w) ∧ w.p = bytes) ∧
      ∀ n w, t.marshal bs (WBuffer.new keyLen) = .ok (n, w) → keyLen + w.p.length < 2 ^ 30 →
        w.p = bytes ∧ n = bytes.length := by
  have := TreeData.makes (plain_of hn h hio ht hc) keyLen
  rw [map_pair_fst] at this
  exact this

section
variable {env : Env} {path tn : Str} {ids : Nat} {before after ops : List Op} {cb : Nat} {cols : List Column}
  {places : Places} {f0 f1 f2 f f' : FileW}

theorem DoneAt.plain {g : FileW} {c : Column} {b : WBranch} (hd : DoneAt tn path g c b) :
    b.branch.data.iobits = 0 ∧ b.branch.name = c.name ∧ b.branch.data.entries = c.vals.length := by
  obtain ⟨b0, l0, done, hm, hcd⟩ := hd
  have hdata := hcd.tables.data
  rw [hm.branch] at hdata
  refine ⟨by rw [hdata]; rfl, ?_, by rw [hdata]⟩
  show b.branch.data.named.name = _
  rw [hdata]; rfl

/-- C64, trees in files: behind the key of a tree that was written in a session is the record of the format for
the tree that is found under the name when the file is opened, with one branch per column that has the name and the
number of values of the column. -/
theorem C64_tree_in_file (hw : TreeWritten env path ids before after tn cb cols places f0 f1 f2 f f')
    (hh : TreeHolds env path before after tn cols places f0 f2 f') :
    ∃ (k : Key) (t : TreeData) (bs : List (PlacedBranch × Nat)) (bytes : List Byte) (m : Marks),
      k ∈ f'.dir.keys ∧ k.name = tn ∧ k.cls = b! "TTree" ∧
      t.part bs k.keyLen.toNat Marks.empty = some (bytes, m) ∧
      k.nBytes = k.keyLen + bytes.length ∧ bytes <+: (image f'.trace).drop (k.seekKey + k.keyLen).toNat ∧
      (∀ (dec : Decoders) (fuel : Nat), 3 ≤ fuel → ∃ r, openFile dec fuel (image f'.trace) = .ok r ∧
        r.getTree dec fuel tn = .ok (t.expected, bs.map fun p => p.1.branch.expected p.2, none)) ∧
      bs.length = cols.length ∧ ∀ (i : Nat) c p, cols[i]? = some c → bs[i]? = some p →
        p.1.branch.name = c.name ∧ p.1.branch.data.entries = c.vals.length := by
  obtain ⟨hi0, hk0, hs0, t, ops, g, g', sis, hs⟩ := hw.stored hh
  have hwr := hs.written hw
  have hho := hs.holds hw hh
  have hacc := hs.accepted hw
  obtain ⟨-, -, hi, -, s, i, buf, hcl, -, es, -, hop⟩ := hwr.opened hho
  have hjp : (acceptedPuts env f0 (treeOps before ops after tn (t.putObj places) sis))[(acceptedPuts env f0 before).length]? =
      some (tn, t.putObj places) := by
    rw [hacc, List.getElem?_append_right (Nat.le_refl _), Nat.sub_self]; rfl
  have hlast : ∀ i q, (acceptedPuts env f0 before).length < i →
      (acceptedPuts env f0 (treeOps before ops after tn (t.putObj places) sis))[i]? = some q → q.1 ≠ tn := by
    intro i q hij hq
    rw [hacc, List.getElem?_append_right (by omega)] at hq
    obtain ⟨m, hm⟩ : ∃ m, i - (acceptedPuts env f0 before).length = m + 1 :=
      ⟨i - (acceptedPuts env f0 before).length - 1, by omega⟩
    rw [hm, List.getElem?_cons_succ] at hq
    exact hh.last q (List.mem_of_getElem? hq)
  have hkeys : f'.dir.keys = f.dir.keys := by rw [hcl.file]; rfl
  obtain ⟨k0, hk0', e⟩ := getElem?_of_map (keys_accepted hi0 hk0 hwr.runs) hjp
  injection e with e1 e2
  injection e2 with e2 e3
  have hkm := List.mem_of_getElem? hk0'
  have hko := hi.keys k0 hkm
  obtain ⟨n, w, hm, hbuf⟩ := payloads_accepted hi0 hk0 hwr.runs _ _ k0 hjp hk0'
  have hnb : k0.nBytes = k0.keyLen + k0.buffer.length := by rw [hko.form]; rfl
  have hkl : k0.keyLen = kl k0.name k0.title k0.cls := by rw [hko.form]; rfl
  have h26 : 26 ≤ kl k0.name k0.title k0.cls := (keyLenFor_ge _ _ _ false false).1
  have hsmall : k0.keyLen.toNat + w.p.length < 2 ^ 30 := by
    have h1 := hh.record k0 (by rw [hkeys]; exact hkm) e1
    rw [← hbuf]
    omega
  have hplaced := hs.placed hh
  have hstor := hs.dataStorable hh
  have hdone : ∀ b ∈ placeBranches places 0 t.branches, b.branch.data.iobits = 0 := by
    intro p hp
    obtain ⟨j, b, hb, rfl⟩ := placeBranches_mem hp
    obtain ⟨c, -, hd⟩ := hs.branches.mem_right hb
    exact hd.plain.1
  obtain ⟨tot, -, hd⟩ := hs.data
  obtain ⟨bytes, m, hp, -, hf⟩ := C64_tree_record_partial t.data (placeBranches places 0 t.branches) PlacedBranch.written
    hstor.named hplaced hdone (by rw [hd]; rfl) (by rw [hd]; exact ⟨rfl, rfl⟩) k0.keyLen.toNat
  obtain ⟨hb, -⟩ := hf n w hm hsmall
  refine ⟨k0, t.data, (placeBranches places 0 t.branches).map fun b => (b, b.written), bytes, m, by rw [hkeys]; exact hkm,
    e1, e2, hp, by rw [hnb, hbuf, hb], ?_, ?_, ?_, ?_⟩
  · have hmem := hko.written ⟨(k0.seekKey + k0.keyLen).toNat, k0.buffer⟩
      (List.mem_cons_of_mem _ (List.mem_singleton.2 rfl))
    have hdp := dirPos_ge path
    have hlo := hko.lo
    have := (Later.close .nil hw.close).stored hi hmem (by
      show _ ≤ (((k0.seekKey + k0.keyLen).toNat : Nat) : Int)
      omega)
    rw [← hb, ← hbuf]
    exact this
  · intro dec fuel hfuel
    obtain ⟨r, k, n', w', ⟨k1, hk1, -, hkk⟩, hr, -, -, -, -, -, hm', -, hobj⟩ :=
      last_key hwr hho (hs.few hw hh) dec fuel hfuel hjp hlast hh.plain
    rw [hk0'] at hk1
    cases hk1
    subst hkk
    have hrt := C32_tree_record t.data (placeBranches places 0 t.branches) PlacedBranch.written hstor
      hplaced (fuel - 3) k0.keyLen.toNat []
    rw [show fuel - 3 + 3 = fuel by omega] at hrt
    obtain ⟨bs, w2, hm2, hp2, -, hread⟩ := hrt
    have hww : w2 = w := by
      have h1 : t.data.marshal (placeBranches places 0 t.branches) (WBuffer.new k0.keyLen.toNat) = .ok (bs.length, w2) := hm2
      have h2 : t.data.marshal (placeBranches places 0 t.branches) (WBuffer.new k0.keyLen.toNat) = .ok (n, w) := hm
      rw [h1] at h2
      injection h2 with h2
      injection h2
    subst hww
    have hww : w' = w2 := by
      have h1 : t.data.marshal (placeBranches places 0 t.branches) (WBuffer.new k0.keyLen.toNat) = .ok (n', w') := hm'
      have h2 : t.data.marshal (placeBranches places 0 t.branches) (WBuffer.new k0.keyLen.toNat) = .ok (n, w2) := hm
      rw [h1] at h2
      injection h2 with h2
      injection h2
    subst hww
    rw [List.nil_append] at hp2 hread
    obtain ⟨r', hr', -⟩ := hread (by rw [← hp2]; exact hsmall) []
    rw [List.append_nil, ← hp2, List.length_nil] at hr'
    refine ⟨r, hr, ?_⟩
    have hobj' : r.getObject dec fuel tn = .ok (.tree t.data.expected
        ((placeBranches places 0 t.branches).map fun b => b.branch.expected b.written) none) := by
      rw [hobj]
      show readWith (do
        let t ← TreeData.unmarshal (readAny fuel)
        pure (Obj.tree t.1 t.2.1 t.2.2)) w'.p k0.keyLen.toNat = _
      refine readWith_of (r := r') ?_
      rw [Rd.bind_ok hr']
      rfl
    unfold FileR.getTree
    rw [Res.bind_ok hobj', List.map_map]
    rfl
  · have := congrArg List.length (placeBranches_map places (fun b => b) t.branches 0)
    simp only [List.length_map] at this ⊢
    rw [this, hs.branches.length]
  · intro i c p hc hp
    rw [List.getElem?_map] at hp
    obtain ⟨q, hq, rfl⟩ := Option.map_eq_some_iff.1 hp
    have := congrArg (fun l => l[i]?) (placeBranches_map places (fun b => b) t.branches 0)
    simp only [List.getElem?_map, hq, Option.map_some] at this
    obtain ⟨b, hb, e⟩ := Option.map_eq_some_iff.1 this.symm
    have hd := (hs.branches.get hc hb).plain
    show q.branch.name = _ ∧ q.branch.data.entries = _
    rw [← e]
    exact hd.2

theorem placedList_zipIdx (env : Env) : ∀ (l : List StreamerInfo) (i : Nat),
    placedList env i l = (l.zipIdx i).map fun p => (p.1.plain, env.addr p.2)
  | [], _ => rfl
  | _ :: l, i => congrArg (_ :: ·) (placedList_zipIdx env l (i + 1))

/-- C64, classes: the list of the classes in a closed file is the one of the format, for the classes of the file in
their order. -/
theorem C64_class_list_partial (hw : Written env path ids ops f0 f f') (hh : Holds env path ops f0 f') :
    ∃ (bytes : List Byte) (m : Marks),
      infosPart (f'.sinfos.zipIdx.map fun p => (p.1.plain, env.addr p.2)) 64 Marks.empty = some (bytes, m) ∧
      f'.header.nBytesInfo = 64 + bytes.length ∧
      bytes <+: (image f'.trace).drop (f'.header.seekInfo.toNat + 64) := by
  obtain ⟨hi0, hk0, hi, hfit, s, i, buf, hc, hko, es, ei, hop⟩ := hw.opened hh
  have hids : ∀ x ∈ s, x.ids.Nodup ∧ ∀ a ∈ x.ids, ∀ j, a ≠ env.addr j := by
    intro x hx
    refine ⟨(List.pairwise_flatMap.1 hko.nodup).1 x hx, fun a ha j e => ?_⟩
    have h1 := hko.below a (List.mem_flatMap.2 ⟨x, hx, ha⟩)
    have h2 := hh.apart j
    omega
  have hwr : ∀ x ∈ s, x.Writable := fun x hx =>
    have hd := hko.ok x hx
    ⟨hd.named, fun e he => ⟨hd.elems e he, fun h =>
      (List.nodup_cons.1 (hids x hx).1).1 (List.mem_map.2 ⟨e, he, h⟩)⟩, hd.few⟩
  obtain ⟨bytes, m, hp, -, hf⟩ := infos_makes hwr (fun x hx j => ⟨(hids x hx).2 x.id List.mem_cons_self j, fun e he =>
    (hids x hx).2 e.element.id (List.mem_cons_of_mem _ (List.mem_map.2 ⟨e, he, rfl⟩)) j⟩)
    (es ▸ hh.listLength) infoKeyLen.toNat
  obtain ⟨n, w, hm, hbuf⟩ := hc.infos
  have v2 : f'.header.nBytesInfo = infoKeyLen + buf.length := by rw [hc.header hi]
  have v1 : f'.header.seekInfo = (closing1 f).header.end_ := by rw [hc.header hi]
  have k64 : infoKeyLen = 64 := by decide
  have hsmall := hh.listBytes
  obtain ⟨hb, -⟩ := hf n w hm (by rw [hbuf]; omega)
  have hst := hc.stored hi (w := ⟨((closing1 f).header.end_ + infoKeyLen).toNat, buf⟩)
    (Or.inr (List.mem_append_left _ (List.mem_cons_of_mem _ (List.mem_singleton.2 rfl))))
  refine ⟨bytes, m, ?_, ?_, ?_⟩
  · rw [es, ← placedList_zipIdx, ← hp, k64]; rfl
  · rw [v2, k64, ← hb, hbuf]
  · have hlo := hc.ends hi
    rw [← hb, hbuf, v1]
    have e : ((closing1 f).header.end_ + infoKeyLen).toNat = (closing1 f).header.end_.toNat + 64 := by
      omega
    rw [← e]
    exact hst

/-- C64, classes of a file with a tree. -/
theorem C64_class_list_tree_partial (hw : TreeWritten env path ids before after tn cb cols places f0 f1 f2 f f')
    (hh : TreeHolds env path before after tn cols places f0 f2 f') :
    ∃ (bytes : List Byte) (m : Marks),
      infosPart (f'.sinfos.zipIdx.map fun p => (p.1.plain, env.addr p.2)) 64 Marks.empty = some (bytes, m) ∧
      f'.header.nBytesInfo = 64 + bytes.length ∧
      bytes <+: (image f'.trace).drop (f'.header.seekInfo.toNat + 64) := by
  obtain ⟨-, -, -, t, ops, g, g', sis, hs⟩ := hw.stored hh
  exact C64_class_list_partial (hs.written hw) (hs.holds hw hh)

end

/-- The hypotheses hold for a session that writes a tree with three columns. -/
example : ∃ (k : Key) (t : TreeData) (bs : List (PlacedBranch × Nat)) (bytes : List Byte) (m : Marks),
    k ∈ demoTreeClosed.dir.keys ∧ t.part bs k.keyLen.toNat Marks.empty = some (bytes, m) ∧
    bytes <+: (image demoTreeClosed.trace).drop (k.seekKey + k.keyLen).toNat ∧ bs.length = 3 :=
  let ⟨k, t, bs, bytes, m, h1, _, _, h4, _, h6, _, h8, _⟩ :=
    C64_tree_in_file demo_session_written demo_session_holds
  ⟨k, t, bs, bytes, m, h1, h4, h6, h8⟩

/-- The same for the classes of that file, of which there are some. -/
example : ∃ (bytes : List Byte) (m : Marks),
    infosPart (demoTreeClosed.sinfos.zipIdx.map fun p => (p.1.plain, demoTreeEnv.addr p.2)) 64 Marks.empty =
      some (bytes, m) ∧
    demoTreeClosed.header.nBytesInfo = 64 + bytes.length ∧
    bytes <+: (image demoTreeClosed.trace).drop (demoTreeClosed.header.seekInfo.toNat + 64) :=
  C64_class_list_tree_partial demo_session_written demo_session_holds

/-- The base `TNamed` of a class, as ROOT describes it: of type 67. -/
def namedBase : Streamer :=
  .base { named := { obj := TObject.default, name := b! "TNamed", title := b! "name and title" }
          etype := .named .tNamed, ename := b! "BASE" } 1

theorem part_of_map {p : Part} {o : Nat} {bytes : List Byte} (h : (p o Marks.empty).map (·.1) = some bytes) :
    ∃ m, p o Marks.empty = some (bytes, m) := by
  obtain ⟨r, hr, rfl⟩ := Option.map_eq_some_iff.1 h
  exact ⟨r.2, hr⟩

theorem ok_of_map {x : Res (Nat × WBuffer)} {n : Nat} {bytes : List Byte}
    (h : x.toOption.map (fun r => (r.1, r.2.p)) = some (n, bytes)) : ∃ w, x = .ok (n, w) ∧ w.p = bytes := by
  cases x with
  | error e => cases h
  | ok r => cases h; exact ⟨r.2, rfl, rfl⟩

/-- C64 fails for the bases `TNamed` and `TObject` of classes: they are written with another type. -/
theorem C64_base_type_false :
    ∃ (s : Streamer) (bytes : List Byte) (m : Marks) (n : Nat) (w : WBuffer), s.Storable ∧
      s.part 1 Marks.empty = some (bytes, m) ∧ s.marshal (WBuffer.holding 0 [0]) = .ok (n, w) ∧ w.p ≠ 0 :: bytes := by
  obtain ⟨m, hm⟩ := part_of_map (p := namedBase.part) (o := 1) (bytes := ((namedBase.part 1 Marks.empty).map (·.1)).getD [])
    (by decide +kernel)
  obtain ⟨w, hw, e⟩ := ok_of_map (x := namedBase.marshal (WBuffer.holding 0 [0])) (n := 95)
    (bytes := ((namedBase.marshal (WBuffer.holding 0 [0])).toOption.map (·.2.p)).getD []) (by decide +kernel)
  refine ⟨namedBase, _, m, _, w, ?_, hm, hw, by rw [e]; decide +kernel⟩
  exact ⟨⟨⟨by decide, by decide, by decide⟩, .inl (by decide), by decide, by decide, by decide, by decide, by decide, by decide,
    by decide, by decide, by decide, rfl, rfl, rfl⟩, by decide⟩

/-- C64 fails for trees and branches with bits of features: four more bytes are written. -/
theorem C64_features_false :
    ∃ (bits : Nat) (bytes : List Byte) (m : Marks) (n : Nat) (w : WBuffer), bits < 2 ^ 8 ∧
      featuresPart bits 1 Marks.empty = some (bytes, m) ∧
      TioFeatures.marshal bits (WBuffer.holding 0 [0]) = .ok (n, w) ∧ w.p.length = 1 + bytes.length + 4 := by
  obtain ⟨m, hm⟩ := part_of_map (p := featuresPart 1) (o := 1) (bytes := [64, 0, 0, 3, 0, 1, 1]) (by decide +kernel)
  obtain ⟨w, hw, e⟩ := ok_of_map (x := TioFeatures.marshal 1 (WBuffer.holding 0 [0])) (n := 11)
    (bytes := [0, 64, 0, 0, 7, 0, 1, 26, 161, 47, 16, 1]) (by decide +kernel)
  exact ⟨1, _, m, _, w, by decide, hm, hw, by rw [e]; rfl⟩

end Verif
