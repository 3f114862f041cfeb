import Verif.Lemmas.LongNames
import Verif.Props.Total
/-
C71: names of any length.  The length of the bytes in front of an object is stored in 16 bits with a sign.
-/
namespace Verif

section
variable {env : Env} {path : Str} {ids : Nat} {ops : List Op} {f0 f f' : FileW}

/-- C71, what does hold: whatever the lengths of their names, the objects that were accepted are listed when the
file is opened again, in the order of the calls, each with its whole name, its title, its class and its cycle. -/
theorem C71_listed_partial (hw : Written env path ids ops f0 f f') (hh : HoldsAny env path ops f0 f')
    (hfew : FewPerName (acceptedPuts env f0 ops)) (dec : Decoders) (fuel : Nat) (hfuel : 3 ≤ fuel) :
    ∃ r, openFile dec fuel (image f'.trace) = .ok r ∧
      r.keysName = (acceptedPuts env f0 ops).map Prod.fst ∧
      r.dir.keys.map (fun k => (k.name, k.cls, k.title)) =
        (acceptedPuts env f0 ops).map (fun p => (p.1, shownClass p.2.cls, p.2.title)) ∧
      (∀ j k, r.dir.keys[j]? = some k → k.cycle = expectedCycle (acceptedPuts env f0 ops) j) := by
  obtain ⟨hi0, hk0, hi, -, hop⟩ := hw.opened_any hh
  refine ⟨_, hop dec fuel hfuel, ?_, ?_, ?_⟩
  · show (f.dir.keys.map fun k => k.wrapped.listed).map Key.name = _
    rw [List.map_map, ← keys_names hi0 hk0 hw.runs]
    rfl
  · show (f.dir.keys.map fun k => k.wrapped.listed).map _ = _
    have := congrArg (List.map fun x : Str × Str × Str => (x.1, shownClass x.2.1, x.2.2))
      (keys_accepted hi0 hk0 hw.runs)
    simp only [List.map_map] at this ⊢
    exact this
  · intro j k hj
    have hj : (f.dir.keys.map fun k => k.wrapped.listed)[j]? = some k := hj
    rw [List.getElem?_map] at hj
    obtain ⟨k0, hk0', rfl⟩ := Option.map_eq_some_iff.1 hj
    have hn := keys_names hi0 hk0 hw.runs
    obtain ⟨p, hp, hpn⟩ := getElem?_of_map hn.symm hk0'
    have hcount := countP_of_map (fun n => decide (n = k0.name)) hn j
    have hle : ((acceptedPuts env f0 ops).take j).countP (fun q => decide (q.1 = k0.name)) < 32767 := by
      have h1 := hfew k0.name
      have hjl := (List.getElem?_eq_some_iff.1 hp).1
      have e : (acceptedPuts env f0 ops) = (acceptedPuts env f0 ops).take j ++
          p :: (acceptedPuts env f0 ops).drop (j + 1) := by
        rw [← (List.getElem?_eq_some_iff.1 hp).2]; simp
      have h2 : (acceptedPuts env f0 ops).countP (fun q => decide (q.1 = k0.name)) =
          ((acceptedPuts env f0 ops).take j).countP (fun q => decide (q.1 = k0.name)) +
          (p :: (acceptedPuts env f0 ops).drop (j + 1)).countP (fun q => decide (q.1 = k0.name)) := by
        conv => lhs; rw [e]
        rw [List.countP_append]
      rw [List.countP_cons_of_pos (by simpa using hpn)] at h2
      omega
    have := cycles_ok hi0 hk0 hw.runs j k0 hk0' (by rw [hcount]; exact hle)
    show k0.cycle = _
    unfold expectedCycle
    rw [this, hcount, hp]
    simp only [hpn]

/-- C71, what does hold: an object is found again by its name and its bytes are the ones that were stored if
there are at most 32767 bytes in front of it, whatever the names of the other objects of the file. -/
theorem C71_kept_partial (hw : Written env path ids ops f0 f f') (hh : HoldsAny env path ops f0 f')
    (hfew : FewPerName (acceptedPuts env f0 ops)) (dec : Decoders) (fuel : Nat) (hfuel : 3 ≤ fuel)
    {j : Nat} {name : Str} {obj : PutObj} (hp : (acceptedPuts env f0 ops)[j]? = some (name, obj))
    (hlast : ∀ i q, j < i → (acceptedPuts env f0 ops)[i]? = some q → q.1 ≠ name)
    (hname : (59 : Byte) ∉ name) (hcls : obj.cls ≠ b! "TBasket") (hroom : headRoom (name, obj) ≤ 32767) :
    ∃ r k n w, openFile dec fuel (image f'.trace) = .ok r ∧ r.findKey name = .ok k ∧
      obj.marshal (WBuffer.new (headRoom (name, obj))) = .ok (n, w) ∧ k.load dec r.img = .ok w.p := by
  obtain ⟨hi0, hk0, hi, hend, -⟩ := hw.opened_any hh
  obtain ⟨r, k, n, w, hr, himg, hk, e1, e2, e3, hfind, hm, hbuf⟩ := last_any hw hh hfew dec fuel hfuel hp hlast hname
  have hkey : k.keyLen = kl k.name k.title k.cls := by rw [hk.form]; rfl
  have hkl := kl_headRoom (name := name) hcls
  rw [e1, e2, e3, hkl] at hkey
  have hwr : k.wrapped = k := Key.wrapped_eq (by rw [hkey]; constructor <;> omega)
  refine ⟨r, k.wrapped.listed, n, w, hr, hfind, by rw [hkey] at hm; simpa using hm, ?_⟩
  rw [hwr, himg, ← hbuf]
  have hnb : k.nBytes = k.keyLen + k.buffer.length := by
    have := hk.form
    rw [this]; rfl
  have hhi := hk.hi
  have hlo := hk.lo
  have hdp := dirPos_ge path
  have h26 : 26 ≤ kl k.name k.title k.cls := (keyLenFor_ge _ _ _ false false).1
  rw [e1, e2, e3, hkl] at hhi h26
  have hgl := hi.good.lo
  refine Key.load_plain (k := k) (v := packedNow) (by rw [hk.form]; rfl) (by rw [hk.form]; rfl) (by omega) (by omega)
    (by omega) (by omega) ?_
  have hmem := hk.written ⟨(k.seekKey + k.keyLen).toNat, k.buffer⟩
    (List.mem_cons_of_mem _ (List.mem_singleton.2 rfl))
  exact (Later.close .nil hw.close).stored hi hmem (by
    show _ ≤ (((k.seekKey + k.keyLen).toNat : Nat) : Int)
    omega)

/-- C71 fails for every object with 32768 to 65535 bytes in front of it: it was accepted, the file was closed
without an error, it is listed under its name, and the program that asks for it is aborted. -/
theorem C71_lost (hw : Written env path ids ops f0 f f') (hh : HoldsAny env path ops f0 f')
    (hfew : FewPerName (acceptedPuts env f0 ops)) (dec : Decoders) (fuel : Nat) (hfuel : 3 ≤ fuel)
    {j : Nat} {name : Str} {obj : PutObj} (hp : (acceptedPuts env f0 ops)[j]? = some (name, obj))
    (hlast : ∀ i q, j < i → (acceptedPuts env f0 ops)[i]? = some q → q.1 ≠ name)
    (hname : (59 : Byte) ∉ name) (hcls : obj.cls ≠ b! "TBasket") (h1 : 32768 ≤ headRoom (name, obj))
    (h2 : headRoom (name, obj) ≤ 65535) :
    ∃ r, openFile dec fuel (image f'.trace) = .ok r ∧ name ∈ r.keysName ∧
      r.getObject dec fuel name = .error .panic ∧ r.getTree dec fuel name = .error .panic := by
  obtain ⟨hi0, hk0, hi, hend, hop⟩ := hw.opened_any hh
  obtain ⟨r, k, n, w, hr, himg, hk, e1, e2, e3, hfind, hm, hbuf⟩ := last_any hw hh hfew dec fuel hfuel hp hlast hname
  have hkl := kl_headRoom (name := name) hcls
  have hload := Key.load_long hk hend (by rw [e1, e2, e3, hkl]; omega) (by rw [e1, e2, e3, hkl]; omega) dec r.img
  have hget : r.getObject dec fuel name = .error .panic := by
    unfold FileR.getObject
    rw [Res.bind_ok hfind]
    unfold Key.object
    rw [hload]
    rfl
  refine ⟨r, hr, ?_, hget, ?_⟩
  · obtain ⟨r', hr', hn, -⟩ := C71_listed_partial hw hh hfew dec fuel hfuel
    rw [hr] at hr'
    injection hr' with hr'
    rw [hr', hn]
    exact List.mem_map_of_mem (f := Prod.fst) (List.mem_of_getElem? hp)
  · unfold FileR.getTree
    rw [hget]
    rfl

end

section
variable {env : Env} {path tn : Str} {ids : Nat} {before after : List Op} {cb : Nat} {cols : List Column}
  {places : Places} {f0 f1 f2 f f' : FileW}

/-- C71 fails for every tree with a name of 32730 to 65497 bytes: it was written, the file was closed without an
error, the tree is listed, and asking for it aborts the program. -/
theorem C71_tree_lost (hw : TreeWritten env path ids before after tn cb cols places f0 f1 f2 f f')
    (hh : TreeHoldsAny env path before after tn cols f0 f2 f') (h1 : 32730 ≤ tn.length) (h2 : tn.length ≤ 65497)
    (dec : Decoders) (fuel : Nat) (hfuel : 3 ≤ fuel) :
    ∃ r, openFile dec fuel (image f'.trace) = .ok r ∧ tn ∈ r.keysName ∧ r.getTree dec fuel tn = .error .panic := by
  obtain ⟨rfl, hlim⟩ := create_ok hw.create hw.small.end_
  have hi0 := Inv.created (path := path) (ids := ids) hlim
  have hi1 := runs_inv hi0 hw.before
  obtain ⟨t, t', hb, hwr⟩ := hw.tree
  obtain ⟨t', ops, g, g', sis, hs⟩ := TreeStored.of_madeOf hi1 hh.values hb hwr hw.small2
  obtain ⟨tot, -, hd⟩ := hs.data
  have htitle : (t'.putObj places).title = [] := by
    show t'.data.named.title = []
    rw [hd]; rfl
  have hacc := hs.accepted hw
  have hholds : HoldsAny env path (treeOps before ops after tn (t'.putObj places) sis) (createdFile path ids) f' := by
    refine ⟨hh.process, hh.text, hh.short, ?_, ?_, hh.listBytes, hh.listLength, hh.apart⟩
    · rw [hacc]
      intro p hp
      rcases List.mem_append.1 hp with hp | hp
      · exact hh.objects p (List.mem_append_left _ hp)
      · rcases List.mem_cons.1 hp with rfl | hp
        · exact ⟨hh.treeText, by rw [htitle]; rfl, rfl⟩
        · exact hh.objects p (List.mem_append_right _ hp)
    · intro op hop
      unfold treeOps at hop
      simp only [List.mem_append, List.mem_map, List.mem_singleton] at hop
      rcases hop with h | h | h | ⟨si, h, rfl⟩ | h
      · exact hh.records op (List.mem_append_left _ h)
      · obtain ⟨bk, rfl⟩ := hs.only op h
        trivial
      · subst h; trivial
      · obtain ⟨c, -, e, -, hm⟩ := hs.infos si h
        exact makeVector_describable hm
      · exact hh.records op (List.mem_append_right _ h)
  have hfew : FewPerName (acceptedPuts env (createdFile path ids) (treeOps before ops after tn (t'.putObj places) sis)) := by
    intro name
    have h := hh.fewPuts name
    rw [hacc]
    unfold treeNames at h
    refine Nat.le_trans (Nat.le_of_eq ?_) h
    have e : (acceptedPuts env (createdFile path ids) before).map Prod.fst ++ tn :: (acceptedPuts env f2 after).map Prod.fst =
        (acceptedPuts env (createdFile path ids) before ++ (tn, t'.putObj places) :: acceptedPuts env f2 after).map Prod.fst := by
      simp
    rw [e, List.count, List.countP_map]
    refine List.countP_congr fun p _ => ?_
    simp
  have hhead : headRoom (tn, t'.putObj places) = tn.length + 38 := by
    unfold headRoom textRoom
    rw [htitle]
    simp only
    rw [if_neg (by omega : ¬ tn.length < 255), show (t'.putObj places).cls = b! "TTree" from rfl,
      show (b! "TTree").length = 5 from rfl, if_pos (by decide), List.length_nil, if_pos (by decide)]
    omega
  obtain ⟨r, r1, r2, -, r3⟩ := C71_lost (hs.written hw) hholds hfew dec fuel hfuel
    (j := (acceptedPuts env (createdFile path ids) before).length) (name := tn) (obj := t'.putObj places)
    (by rw [hacc, List.getElem?_append_right (Nat.le_refl _), Nat.sub_self]; rfl)
    (by
      intro i q hi hq
      rw [hacc, List.getElem?_append_right (by omega)] at hq
      obtain ⟨m, hm⟩ : ∃ m, i - (acceptedPuts env (createdFile path ids) before).length = m + 1 :=
        ⟨i - (acceptedPuts env (createdFile path ids) before).length - 1, by omega⟩
      rw [hm, List.getElem?_cons_succ] at hq
      exact hh.last q (List.mem_of_getElem? hq))
    hh.plain (show b! "TTree" ≠ b! "TBasket" by decide) (by omega) (by omega)
  exact ⟨r, r1, r2, r3⟩

end

/-! ### There are such trees -/

/-- A tree without columns, with a name of any length up to 100000 bytes, is written to a new file. -/
theorem long_tree {addr : Nat → Nat} (ha : ∀ i j, addr i = addr j → i = j) (hmem : ∀ j, 20000000 ≤ addr j)
    {tn : Str} (places : Places) (hu : utf8 tn = true) (hlen : tn.length ≤ 100000) (hslash : (47 : Byte) ∉ tn)
    (hsemi : (59 : Byte) ∉ tn) :
    ∃ f0 f2 f', TreeWritten (bundledEnv addr) (b! "d.root") 10 [] [] tn 0 [] places f0 f0 f2 f2 f' ∧
      TreeHoldsAny (bundledEnv addr) (b! "d.root") [] [] tn [] f0 f2 f' := by
  have he := C48_storable addr ha
  obtain ⟨hcr, hb0⟩ := create_runs (path := b! "d.root") 10 (by decide)
  have hi0 := Inv.created (path := b! "d.root") (ids := 10) (by decide)
  have hend0 : (createdFile (b! "d.root") 10).header.end_ = 208 := by decide
  have hkeys0 : (createdFile (b! "d.root") 10).dir.keys = [] := rfl
  have hinf0 : (createdFile (b! "d.root") 10).sinfos = [] := rfl
  have hids0 : (createdFile (b! "d.root") 10).ids = 10 := rfl
  generalize createdFile (b! "d.root") 10 = f0 at *
  have hbuild : buildTree tn 0 [] = .ok (WTree.new tn) := rfl
  have hrounds : ∀ f, writeRounds ((WTree.new tn).left + 1) ((WTree.new tn).branches.map fun _ => false) (WTree.new tn) f =
      (.ok (WTree.new tn), f) := fun f => rfl
  have hd : (WTree.new tn).data = { (WTree.new tn).data with totBytes := 0, entries := longest [] } := rfl
  have hname : (WTree.new tn).data.named.name = tn := rfl
  have htitle : (WTree.new tn).data.named.title = [] := rfl
  have hc1 : (WTree.new tn).data.clusterRanges = [] := rfl
  have hc2 : (WTree.new tn).data.clusterSizes = [] := rfl
  have hbr : (WTree.new tn).branches = [] := rfl
  have hsi : (WTree.new tn).sinfos = some [] := rfl
  have hstor := data_storable (cols := []) (tot := 0) (by decide) hd (by decide) hlen hu
  generalize hw : WTree.new tn = w at *
  have hnamed : putName tn (w.putObj places) = tn := by
    unfold putName
    split
    · next h => rw [h]; exact hname.trans h
    · rfl
  have hput : (w.putObj places).title = [] := htitle
  have hcls : (w.putObj places).cls = b! "TTree" := rfl
  have hkl := kl_le_small tn [] (b! "TTree")
  have hkl0 : 26 ≤ kl tn [] (b! "TTree") := (keyLenFor_ge _ _ _ false false).1
  have e5 : (b! "TTree").length = 5 := rfl
  rw [e5, List.length_nil] at hkl
  obtain ⟨rec, wb, hm, hp, -⟩ := C32_tree_record w.data [] (fun _ => 0) hstor
    ⟨by simp, by simp, by simp, by decide, by decide⟩ 0 (kl tn [] (b! "TTree")).toNat []
  have hrec := TreeData.adds w.data [] (by simp) _ _ _ hm
  rw [hname, htitle, hc1, hc2, show (WBuffer.holding (kl tn [] (b! "TTree")).toNat []).p.length = 0 from rfl] at hrec
  have hm' : (w.putObj places).marshal (WBuffer.new (kl tn [] (b! "TTree")).toNat) = .ok (rec.length, wb) := by
    show w.data.marshal (placeBranches places 0 w.branches) _ = _
    rw [hbr]
    exact hm
  have hcap : treeCap tn [] = tn.length + 500 := by
    unfold treeCap
    simp
  obtain ⟨fa, hann, hainf, haids⟩ := tree_announced (addr := addr) (t := w) (places := places)
    (f := f0) (by rw [hinf0]; exact InfosOf.nil _)
  obtain ⟨f2, h2, hb2, hend2⟩ := put_runs (name := tn) hi0 hb0 hslash (c := 0)
    (by rw [hkeys0]; rfl) hann (by rw [hnamed, hput, hcls]; exact hm') (by
      rw [hnamed, hput, hcls]
      simp only [List.length_nil] at hrec
      omega)
  have hg := put_ok hi0.good h2
  obtain ⟨-, c', fa', m', w', -, ha', -, -, -, hg3⟩ := hg
  have := announced_same hann ha'
  subst this
  obtain ⟨hi2, c'', m'', w'', k, -, hm'', hk, hkeys, -, -⟩ := put_inv hi0 h2 hb2
  rw [hnamed, hput, hcls] at hm'' hk hend2
  have hww : w'' = wb := by
    rw [hm'] at hm''
    injection hm'' with h
    injection h with _ h
    exact h.symm
  subst hww
  simp only [List.length_nil] at hrec
  have hrun : Runs (bundledEnv addr) f0 [Op.put tn (w.putObj places)] f2 :=
    .snoc (ops := []) .nil (r := .ok ()) h2 (fun h => by cases h) hb2
  have hready : Ready (b! "d.root") (List.replicate 100 tn) 52 f2 := by
    refine ⟨hi2, hb2, by rw [hg3]; exact hainf, by rw [hg3]; show fa.ids ≤ 52; omega, ?_, ?_⟩
    · intro x hx
      rw [hkeys, hkeys0, List.nil_append, List.mem_singleton] at hx
      rw [hx, hk]
      refine ⟨by show tn ∈ _; simp, ?_⟩
      show kl tn [] (b! "TTree") + (w''.p.length : Int) < 2 ^ 30
      omega
    · unfold keysLen
      rw [hkeys, hkeys0, hk, List.length_replicate]
      show 4 + (kl tn [] (b! "TTree") + 0) ≤ _
      omega
  have hinfos : InfosOk f2.sinfos f2.ids := runs_infosOk he (fun op hop => by
    rw [List.mem_singleton.1 hop]; trivial) hi0 hrun (by rw [hinf0]; exact InfosOk.nil _)
  obtain ⟨f', hcl, hbytes, hlen', hids, -⟩ := ready_closes he hready hinfos (by decide)
    (fun j => by have := hmem j; omega) (by rw [List.length_replicate]; omega)
  refine ⟨f0, f2, f', ⟨hcr, hb0, .nil, ⟨w, { w with sinfos := none }, .of_columns hbuild, ?_⟩, hb2, .nil, hcl⟩, ?_⟩
  · unfold WTree.write
    rw [Fs.bind_of_ok (hrounds f0)]
    unfold WTree.close
    rw [hbr, Fs.bind_of_ok (show flushAll [] f0 = (.ok [], f0) from rfl)]
    have hw' : ({ w with branches := [] } : WTree) = w := by rw [← hbr]
    dsimp only
    rw [hw', hname, Fs.bind_of_ok h2, hsi, Fs.bind_of_ok (show Fs.orPanic (some []) f2 = (.ok [], f2) from rfl)]
    rfl
  · refine ⟨he, by decide, by decide, fun p hp => (by cases hp), fun p hp => (by cases hp), hbytes, hlen', hids, ?_,
      hu, hsemi, fun p hp => (by cases hp), fun c hc => (by cases hc)⟩
    intro n
    show List.count n [tn] ≤ 32767
    have := List.count_le_length (a := n) (l := [tn])
    simp only [List.length_singleton] at this
    omega

theorem long_name : utf8 (List.replicate 40000 (97 : Byte)) = true ∧
    (List.replicate 40000 (97 : Byte)).length = 40000 ∧ (47 : Byte) ∉ List.replicate 40000 (97 : Byte) ∧
    (59 : Byte) ∉ List.replicate 40000 (97 : Byte) := by
  refine ⟨?_, List.length_replicate, ?_, ?_⟩
  · exact utf8_ascii fun b hb => by rw [List.eq_of_mem_replicate hb]; decide
  · intro h
    exact absurd (List.eq_of_mem_replicate h) (by decide)
  · intro h
    exact absurd (List.eq_of_mem_replicate h) (by decide)

/-- C71 is false: a tree with a name of 40000 letters is written without any error, it is listed by the reader,
and asking for it aborts. -/
theorem C71_false (dec : Decoders) (fuel : Nat) (hfuel : 3 ≤ fuel) :
    ∃ tn f0 f2 f' r, TreeWritten (bundledEnv fun j => 2 * j + 20000000) (b! "d.root") 10 [] [] tn 0 [] (fun _ => (0, [1]))
        f0 f0 f2 f2 f' ∧
      openFile dec fuel (image f'.trace) = .ok r ∧ tn ∈ r.keysName ∧ r.getTree dec fuel tn = .error .panic := by
  obtain ⟨hu, hl, h1, h2⟩ := long_name
  obtain ⟨f0, f2, f', hw, hh⟩ := long_tree (addr := fun j => 2 * j + 20000000) (fun i j h => by omega)
    (fun j => by omega) (fun _ => (0, [1])) hu (by rw [hl]; decide) h1 h2
  obtain ⟨r, r1, r2, r3⟩ := C71_tree_lost hw hh (by rw [hl]; decide) (by rw [hl]; decide) dec fuel hfuel
  exact ⟨_, f0, f2, f', r, hw, r1, r2, r3⟩

/-- A session that holds for short names holds in the sense of C71. -/
theorem Holds.any {env : Env} {path : Str} {ops : List Op} {f0 f' : FileW} (h : Holds env path ops f0 f') :
    HoldsAny env path ops f0 f' :=
  ⟨h.process, h.text, h.short, fun p hp => ⟨(h.objects p hp).name, (h.objects p hp).title, (h.objects p hp).cls⟩,
    h.records, h.listBytes, h.listLength, h.apart⟩

/-- The small session of C15 meets the hypotheses of `C71_listed_partial`. -/
example (dec : Decoders) : ∃ r, openFile dec 3 (image demoClosed.trace) = .ok r ∧ r.keysName = [b! "o", b! "o"] := by
  obtain ⟨r, h, hk, -⟩ := C71_listed_partial demo_written demo_holds.any demo_few dec 3 (Nat.le_refl _)
  exact ⟨r, h, hk.trans demo_accepted⟩

/-- Its last object meets the hypotheses of `C71_kept_partial`. -/
example (dec : Decoders) : ∃ r k bs, openFile dec 3 (image demoClosed.trace) = .ok r ∧
    r.findKey (b! "o") = .ok k ∧ k.load dec r.img = .ok bs := by
  obtain ⟨p, hp, hpn⟩ := getElem?_of_map (f := Prod.fst) (g := _root_.id) (j := 1) (b := b! "o")
    (demo_accepted.trans (List.map_id _).symm) rfl
  have hlen : (acceptedPuts demoEnv (createFile (FileW.initial (b! "d.root") 10)).2 demoOps).length = 2 := by
    have := congrArg List.length demo_accepted
    simpa using this
  have hst := demo_holds.objects p (List.mem_of_getElem? hp)
  have hcls : p.2.cls ≠ b! "TBasket" := by
    have hall : b! "TBasket" ∉ (acceptedPuts demoEnv (createFile (FileW.initial (b! "d.root") 10)).2 demoOps).map
        (fun p => p.2.cls) := by decide +kernel
    exact fun h => hall (h ▸ List.mem_map_of_mem (f := fun p : Str × PutObj => p.2.cls) (List.mem_of_getElem? hp))
  obtain ⟨r, k, n, w, h1, h2, -, h5⟩ := C71_kept_partial demo_written demo_holds.any demo_few dec 3
    (Nat.le_refl _) (name := p.1) (obj := p.2) hp (fun i q hi hq => by
      have := (List.getElem?_eq_some_iff.1 hq).1
      omega) (by rw [hpn]; decide) hcls (by
      have := hst.short
      unfold headRoom textRoom
      dsimp only
      split <;> split <;> split <;> omega)
  rw [hpn] at h2
  exact ⟨r, k, w.p, h1, h2, h5⟩

/-- A tree with a name of 40000 letters meets the hypotheses of `C71_tree_lost`, and the object that was stored for
it those of `C71_lost`. -/
example : ∃ tn f0 f2 f', TreeWritten (bundledEnv fun j => 2 * j + 20000000) (b! "d.root") 10 [] [] tn 0 []
      (fun _ => (0, [1])) f0 f0 f2 f2 f' ∧
    TreeHoldsAny (bundledEnv fun j => 2 * j + 20000000) (b! "d.root") [] [] tn [] f0 f2 f' ∧
    32730 ≤ tn.length ∧ tn.length ≤ 65497 := by
  obtain ⟨hu, hl, h1, h2⟩ := long_name
  obtain ⟨f0, f2, f', hw, hh⟩ := long_tree (addr := fun j => 2 * j + 20000000) (fun i j h => by omega)
    (fun j => by omega) (fun _ => (0, [1])) hu (by rw [hl]; decide) h1 h2
  exact ⟨_, f0, f2, f', hw, hh, by rw [hl]; decide, by rw [hl]; decide⟩

end Verif
