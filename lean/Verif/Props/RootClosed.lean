import Verif.Lemmas.RootClosed
import Verif.Spec.RootClosed
import Verif.Props.RootFiles
/-
C67: the files that are written are files of ROOT.
-/
namespace Verif

/-- C67: a closed file is a file of ROOT, in the sense of `Spec/RootFiles.lean`, where nothing of the writer is
mentioned: its header, its top directory, its list of keys, its free segments and its list of classes are at
their places, and every size and position in them is that of what it is about.  Its keys are those of the
objects that were put, in their order; behind each is the record of the object.  Its classes are those that were
collected. -/
theorem C67_root_file {env : Env} {path : Str} {ids : Nat} {ops : List Op} {f0 f f' : FileW}
    (hw : Written env path ids ops f0 f f') (hh : Holds env path ops f0 f')
    (hb : ∀ p ∈ acceptedPuts env f0 ops, p.2.cls ≠ b! "TBasket") (dec : Decoders) :
    ∃ F : RootFile, F.Ok ∧ F.infos.Ok ∧ F.ShortName ∧ F.In dec (image f'.trace) ∧
      F.top.name = path ∧ F.keys.map Prod.fst = f'.dir.keys ∧ F.infos.rules = none ∧
      F.infos.infos.map RootInfo.seen = f'.sinfos.map StreamerInfo.expected ∧
      Pairs (PutRecord dec (image f'.trace)) (acceptedPuts env f0 ops) F.keys := by
  obtain ⟨hi0, hk0, hi, hfit, s, i, buf, hc, hko, es, ei, -⟩ := hw.opened hh
  have hend := hw.close.2.end_
  have hp := pathLen_short.1 hh.short
  have hacc := keys_accepted hi0 hk0 hw.runs
  have hcls : ∀ k ∈ f.dir.keys, k.cls ≠ b! "TBasket" := by
    intro k hk
    have h1 := List.mem_map_of_mem (f := fun k : Key => (k.name, k.cls, k.title)) hk
    rw [hacc] at h1
    obtain ⟨p, hp, e⟩ := List.mem_map.1 h1
    injection e with e1 e2
    injection e2 with e2 e3
    rw [← e2]
    exact hb p hp
  have hh' := hc.header hi
  have v2 : f'.header.nBytesName = dirKeyLen path + dirNameLen path := by rw [hh']; rfl
  refine ⟨closedRoot env path f f' s i buf, closedRoot_ok hi hc hend hh.text hp hfit hko.ok hh.listBytes, ?_, ?_,
    closedRoot_in hi hc hend hh.text hp hcls dec, rfl, ?_, rfl, ?_, ?_⟩
  · refine ⟨rootInfos_ok hko.ok 0, (fun l hl => by cases hl), ?_, ?_⟩
    · show (rootInfos env 0 s).length + 0 < 2 ^ 31
      rw [rootInfos_length, ← es]
      exact hh.listLength
    · show (_ ++ []).Nodup
      rw [List.append_nil]
      exact rootInfos_distinct hh.process hko.nodup hko.below (by rw [← ei]; exact hh.apart) 0
  · show 10 ≤ f'.header.nBytesName ∧ f'.header.nBytesName ≤ 1000
    have := (dirKeyLen_lt hp).1
    have := (dirKeyLen_lt hp).2.1
    omega
  · show (f.dir.keys.map fun k => (k, packedNow)).map Prod.fst = _
    rw [List.map_map, hc.file]
    exact List.map_id _
  · rw [es]
    exact rootInfos_seen hko.ok 0
  · have hl : (acceptedPuts env f0 ops).length = f.dir.keys.length := by
      have := congrArg List.length hacc
      simpa using this.symm
    have hp : Pairs (fun p k => PutRecord dec (image f'.trace) p (k, packedNow)) (acceptedPuts env f0 ops) f.dir.keys := by
      refine Pairs.of_get hl fun j p k hj hk => ?_
      obtain ⟨n, w, hm, hbuf⟩ := payloads_accepted hi0 hk0 hw.runs j p k hj hk
      have hkm := List.mem_of_getElem? hk
      obtain ⟨k', hk', he⟩ := getElem?_of_map hacc hj
      rw [hk] at hk'
      cases hk'
      injection he with he1 he2
      injection he2 with he2 he3
      have ho := hi.keys k hkm
      have hx := hfit k hkm
      have hst : ∀ w ∈ k.twoWrites (k.enc packedNow), Stored (image f'.trace) w.pos w.data := by
        intro w hw'
        refine Later.stored hi (Later.close .nil hw.close) (ho.written w hw') ?_
        have h1 := ho.lo
        have h2 := congrArg Key.keyLen ho.form
        have h3 : 26 ≤ kl k.name k.title k.cls := (keyLenFor_ge _ _ _ false false).1
        have h2 : k.keyLen = kl k.name k.title k.cls := h2
        have hd := dirPos_ge path
        rcases List.mem_cons.1 hw' with rfl | hw'
        · show dirPos path + 60 ≤ ((k.seekKey.toNat : Nat) : Int); omega
        · rw [List.mem_singleton.1 hw']
          show dirPos path + 60 ≤ (((k.seekKey + k.keyLen).toNat : Nat) : Int); omega
      refine ⟨⟨k, packedNow, k.buffer, none⟩, rfl, ?_, he1, he2, he3, n, w, hm, hbuf.symm⟩
      have h1 := ho.lo
      have h2 := ho.hi
      have h3 := dirPos_ge path
      have h4 := hi.good.hi
      have hform := ho.form
      have hcy := ho.cycle
      have hc' := hcls k hkm
      generalize k.name = na at *
      generalize k.title = ti at *
      generalize k.cls = cl at *
      generalize k.cycle = cy at *
      generalize k.seekKey = sk at *
      generalize k.buffer = bs at *
      subst hform
      exact Key.at_record (by omega) hcy (by decide) (by decide) hx.1 hx.2.1 hx.2.2.1 hx.2.2.2 hc' (by omega) hst
    exact hp.map_right fun a b _ h => h

/-- The session of `Spec/Demo.lean`: two objects and a basket. -/
example (dec : Decoders) : ∃ F : RootFile, F.Ok ∧ F.In dec (image demoClosed.trace) ∧ F.keys.length = 2 := by
  have e : acceptedPuts demoEnv (createFile (FileW.initial (b! "d.root") 10)).2 demoOps = [(b! "o", demoObj 5), (b! "o", demoObj 7)] := rfl
  obtain ⟨F, h1, -, -, h2, -, -, -, -, h3⟩ := C67_root_file demo_written demo_holds (by
    rw [e]
    intro p hp
    rcases List.mem_cons.1 hp with rfl | hp
    · decide
    · rw [List.mem_singleton.1 hp]; decide) dec
  exact ⟨F, h1, h2, by rw [← h3.length_eq, e]; rfl⟩

end Verif
