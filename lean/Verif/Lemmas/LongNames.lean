import Verif.Props.Reopen
import Verif.Lemmas.TreeOpened
import Verif.Spec.LongNames

/-! # Objects with names of any length -/

namespace Verif

theorem kl_headRoom {name : Str} {obj : PutObj} (h : obj.cls ≠ b! "TBasket") :
    kl name obj.title obj.cls = (headRoom (name, obj) : Nat) := by
  have e : ∀ s : Str, tstringSizeof s = (textRoom s : Nat) := by
    intro s
    unfold tstringSizeof textRoom
    split <;> split <;> omega
  unfold kl Verif.keyLenFor headRoom
  rw [if_neg (by decide), if_neg h, e, e, e]
  simp only
  omega

theorem asI2_long {v : Int} (h1 : 32768 ≤ v) (h2 : v ≤ 65535) : asI 2 v = v - 65536 := by
  unfold asI toSigned wrapI
  rw [show ((256 ^ 2 : Nat) : Int) = 65536 from rfl, show (256 ^ 2 : Nat) = 65536 from rfl]
  rw [Int.emod_eq_of_lt (by omega) (by omega)]
  split <;> omega

theorem Key.load_long {path : Str} {f : FileW} {k : Key} (h : KeyOk path f k) (hend : f.header.end_ ≤ 2000000000)
    (h1 : 32768 ≤ kl k.name k.title k.cls) (h2 : kl k.name k.title k.cls ≤ 65535) (dec : Decoders) (img : List Byte) :
    k.wrapped.listed.load dec img = .error .panic := by
  have hlo := h.lo
  have hhi := h.hi
  have hdp := dirPos_ge path
  have e1 : k.nBytes = kl k.name k.title k.cls + k.buffer.length := by rw [h.form]; rfl
  have e2 : k.objLen = k.buffer.length := by rw [h.form]; rfl
  have e3 : k.keyLen = kl k.name k.title k.cls := by rw [h.form]; rfl
  have w1 : k.wrapped.listed.nBytes = k.nBytes := rfl
  have w2 : k.wrapped.listed.objLen = k.objLen := rfl
  have w3 : k.wrapped.listed.keyLen = kl k.name k.title k.cls - 65536 := by
    show asI 2 k.keyLen = _
    rw [e3, asI2_long h1 h2]
  have w4 : k.wrapped.listed.seekKey = k.seekKey := rfl
  unfold Key.load Key.isCompressed
  rw [w1, w2, w3, w4]
  split
  · rfl
  rw [if_pos (by simp only [decide_eq_true_eq, ne_eq]; omega), if_neg (by omega)]
  by_cases hs : 0 ≤ k.seekKey + (kl k.name k.title k.cls - 65536)
  · rw [sumU64_neg (by omega) (by omega) (by omega) (by omega) hs]
    rfl
  · have hsum : sumU64 k.seekKey (kl k.name k.title k.cls - 65536) = .ok (k.seekKey + (kl k.name k.title k.cls - 65536)) := by
      unfold sumU64
      rw [asU64_small (by omega) (by omega), asU64_neg (by omega) (by omega), if_neg (by omega)]
    have hdiff : diffU64 k.nBytes (kl k.name k.title k.cls - 65536) = .error .panic := by
      unfold diffU64
      rw [asU64_small (by omega) (by omega), asU64_neg (by omega) (by omega), if_pos (by omega)]
    rw [Res.bind_ok hsum, hdiff]
    rfl

section
variable {env : Env} {path : Str} {ids : Nat} {ops : List Op} {f0 f f' : FileW}

theorem keys_text (hi : Inv path f0) (h0 : f0.dir.keys = []) (h : Runs env f0 ops f)
    (hs : ∀ p ∈ acceptedPuts env f0 ops, Textual p) : KeysText f := by
  intro k hk
  have h1 := List.mem_map_of_mem (f := fun k : Key => (k.name, k.cls, k.title)) hk
  rw [keys_accepted hi h0 h] at h1
  obtain ⟨p, hp, e⟩ := List.mem_map.1 h1
  have hp' := hs p hp
  injection e with e1 e2
  injection e2 with e2 e3
  rw [← e1, ← e2, ← e3]
  exact ⟨hp'.name, hp'.title, hp'.cls⟩

/-- `Written.opened` for names of any length. -/
theorem Written.opened_any (hw : Written env path ids ops f0 f f') (hh : HoldsAny env path ops f0 f') :
    Inv path f0 ∧ f0.dir.keys = [] ∧ Inv path f ∧ f.header.end_ ≤ 2000000000 ∧
    ∀ (dec : Decoders) (fuel : Nat), 3 ≤ fuel → openFile dec fuel (image f'.trace) = .ok
      { header := f'.header, spans := [⟨f'.header.end_, kStartBigFile⟩]
        sinfos := (f'.sinfos.map StreamerInfo.expected).reverse
        dir := { (closedDir f).afterRead packedNow packedNow with
          className := b! "TFile", name := path, keys := f.dir.keys.map fun k => k.wrapped.listed }
        img := image f'.trace } := by
  obtain ⟨rfl, hlim⟩ := create_ok hw.create hw.small.end_
  have hi0 := Inv.created (path := path) (ids := ids) hlim
  have hi := runs_inv hi0 hw.runs
  have hk0 : InfosOk (createdFile path ids).sinfos (createdFile path ids).ids := InfosOk.nil _
  have hk := runs_infosOk hh.process hh.records hi0 hw.runs hk0
  have htext := keys_text hi0 rfl hw.runs hh.objects
  obtain ⟨s, i, buf, hc⟩ := hi.close hw.close
  have hk1 : InfosOk (closing1 f).sinfos (closing1 f).ids := hk
  have hko : InfosOk s i := findDeep_infosOk hh.process hc.deps hk1
  have es : f'.sinfos = s := by rw [hc.file]; rfl
  have ei : f'.ids = i := by rw [hc.file]; rfl
  have hend : f.header.end_ ≤ 2000000000 := by
    have := hc.ends hi
    have : f'.header.end_ ≤ 2000000000 := hw.close.2.end_
    omega
  refine ⟨hi0, rfl, hi, hend, fun dec fuel hfuel => ?_⟩
  have := hc.open_any hh.process hi hw.close.2.end_ hh.text (pathLen_short.1 hh.short) htext hko
    (by rw [← ei]; exact hh.apart) hh.listBytes (by rw [← es]; exact hh.listLength) dec (fuel - 3)
  rw [es]
  rw [show fuel - 3 + 3 = fuel by omega] at this
  exact this

/-- The last object put under a name, as it is found again. -/
theorem last_any (hw : Written env path ids ops f0 f f') (hh : HoldsAny env path ops f0 f')
    (hfew : FewPerName (acceptedPuts env f0 ops)) (dec : Decoders) (fuel : Nat) (hfuel : 3 ≤ fuel)
    {j : Nat} {name : Str} {obj : PutObj} (hp : (acceptedPuts env f0 ops)[j]? = some (name, obj))
    (hlast : ∀ i q, j < i → (acceptedPuts env f0 ops)[i]? = some q → q.1 ≠ name)
    (hname : (59 : Byte) ∉ name) :
    ∃ r k n w, openFile dec fuel (image f'.trace) = .ok r ∧ r.img = image f'.trace ∧ KeyOk path f k ∧
      k.name = name ∧ k.title = obj.title ∧ k.cls = obj.cls ∧ r.findKey name = .ok k.wrapped.listed ∧
      obj.marshal (WBuffer.new k.keyLen.toNat) = .ok (n, w) ∧ k.buffer = w.p := by
  obtain ⟨hi0, hk0, hi, -, hop⟩ := hw.opened_any hh
  have hka := keys_accepted hi0 hk0 hw.runs
  obtain ⟨k, hk, e⟩ := getElem?_of_map hka hp
  injection e with e1 e2
  injection e2 with e2 e3
  obtain ⟨n, w, hm, hbuf⟩ := payloads_accepted hi0 hk0 hw.runs j _ k hp hk
  have hn := keys_names hi0 hk0 hw.runs
  refine ⟨_, k, n, w, hop dec fuel hfuel, rfl, hi.keys k (List.mem_of_getElem? hk), e1, e3, e2, ?_, hm, hbuf⟩
  rw [findKey_of hname]
  show chooseKey name (f.dir.keys.map fun k => k.wrapped.listed) = _
  refine chooseKey_last (j := j) (by rw [List.getElem?_map, hk]; rfl) e1 ?_ ?_
  · intro i q hij hq
    rw [List.getElem?_map] at hq
    obtain ⟨k', hk', rfl⟩ := Option.map_eq_some_iff.1 hq
    obtain ⟨q', hq', e'⟩ := getElem?_of_map hn.symm hk'
    have := hlast i q' hij hq'
    rw [e'] at this
    exact this
  · have hpw := (cycles_ok hi0 hk0 hw.runs).pairwise (name := name) (by
      have := countP_of_map (fun n => decide (n = name)) hn f.dir.keys.length
      have hlen : (acceptedPuts env f0 ops).length = f.dir.keys.length := by
        simpa using (congrArg List.length hn).symm
      rw [List.take_length, ← hlen, List.take_length] at this
      rw [this]
      exact hfew name)
    rw [List.filter_map, List.pairwise_map]
    exact hpw

end

end Verif
