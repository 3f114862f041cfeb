import Verif.Props.Puts
import Verif.Props.Layout
import Verif.Lemmas.Opened
/-
C15 (a closed file opens with exactly the keys that were put), C16 (looking a name up), C45 (names).
-/
namespace Verif

/-! ### Keys and accepted objects, one by one -/

theorem payloads_accepted {env : Env} {path : Str} {ops : List Op} {f0 f : FileW} (hi : Inv path f0)
    (h0 : f0.dir.keys = []) (h : Runs env f0 ops f) (j : Nat) (p : Str × PutObj) (k : Key)
    (hp : (acceptedPuts env f0 ops)[j]? = some p) (hk : f.dir.keys[j]? = some k) :
    ∃ n w, p.2.marshal (WBuffer.new k.keyLen.toNat) = .ok (n, w) ∧ k.buffer = w.p := by
  induction h generalizing j p k with
  | nil => rw [h0] at hk; simp at hk
  | @snoc ops g1 op r g' h1 h2 h3 h4 ih =>
    have hi1 := runs_inv hi h1
    have hlen : g1.dir.keys.length = (acceptedPuts env f0 ops).length := by
      have := congrArg List.length (keys_accepted hi h0 h1)
      simpa using this
    rw [acceptedPuts_snoc, ← h1.end_eq] at hp
    rcases step_dir hi1 h2 h3 h4 with ⟨hk', hno⟩ | ⟨name, obj, c, m, w, k', rfl, rfl, -, hm, rfl, hk'⟩
    · have : op.accepted env g1 = [] := by
        unfold Op.accepted
        rw [h2]
        cases op with
        | put name obj =>
          rcases r with e | u
          · rfl
          · exact absurd rfl (hno name obj rfl)
        | basket b => rfl
        | register si => rfl
      rw [this, List.append_nil] at hp
      rw [hk'] at hk
      exact ih j p k hp hk
    · have : (Op.put name obj).accepted env g1 = [(storedName name obj, obj)] := by
        unfold Op.accepted
        rw [h2]
      rw [this] at hp
      rw [hk'] at hk
      rcases Nat.lt_or_ge j g1.dir.keys.length with hl | hl
      · rw [List.getElem?_append_left hl] at hk
        rw [List.getElem?_append_left (by omega)] at hp
        exact ih j p k hp hk
      · have hj := (List.getElem?_eq_some_iff.1 hk).1
        simp at hj
        have ej : j = g1.dir.keys.length := by omega
        rw [List.getElem?_append_right hl, ej] at hk
        rw [List.getElem?_append_right (by omega), ej, hlen] at hp
        simp at hk hp
        subst hk hp
        exact ⟨m, w, hm, rfl⟩

theorem kl_le (n t c : Str) : kl n t c ≤ n.length + t.length + c.length + 60 := by
  have h1 := tstringSizeof_le n
  have h2 := tstringSizeof_le t
  have h3 := tstringSizeof_le c
  unfold kl Verif.keyLenFor
  rw [if_neg (by decide)]
  split <;> omega

theorem pathLen_short {path : Str} : path.length ≤ 478 ↔ dirKeyLen path + dirNameLen path ≤ 1000 := by
  have h : dirKeyLen path + dirNameLen path = 34 + 2 * tstringSizeof path := by
    unfold dirKeyLen dirNameLen Verif.keyLenFor
    rw [show tstringSizeof (b! "TFile") = 6 from rfl, show tstringSizeof [] = 1 from rfl,
      if_neg (by decide), if_neg (by decide)]
    omega
  rw [h]
  unfold tstringSizeof
  split <;> omega

theorem keys_fit {env : Env} {path : Str} {ops : List Op} {f0 f : FileW} (hi : Inv path f0)
    (h0 : f0.dir.keys = []) (h : Runs env f0 ops f)
    (hs : ∀ p ∈ acceptedPuts env f0 ops, Storable p) : KeysFit f := by
  intro k hk
  have h1 := List.mem_map_of_mem (f := fun k : Key => (k.name, k.cls, k.title)) hk
  rw [keys_accepted hi h0 h] at h1
  obtain ⟨p, hp, e⟩ := List.mem_map.1 h1
  have hp' := hs p hp
  injection e with e1 e2
  injection e2 with e2 e3
  rw [← e1, ← e2, ← e3]
  have := kl_le p.1 p.2.title p.2.cls
  have := hp'.short
  exact ⟨by omega, hp'.name, hp'.title, hp'.cls⟩

/-- What is known of a file written within the limits. -/
theorem Written.opened {env : Env} {path : Str} {ids : Nat} {ops : List Op} {f0 f f' : FileW}
    (hw : Written env path ids ops f0 f f') (hh : Holds env path ops f0 f') :
    Inv path f0 ∧ f0.dir.keys = [] ∧ Inv path f ∧ KeysFit f ∧
    ∃ s i buf, ClosedAs env path f f' s i buf ∧ InfosOk s i ∧ f'.sinfos = s ∧ f'.ids = i ∧
    ∀ (dec : Decoders) (fuel : Nat), 3 ≤ fuel → openFile dec fuel (image f'.trace) = .ok
      { header := f'.header, spans := [⟨f'.header.end_, kStartBigFile⟩]
        sinfos := (f'.sinfos.map StreamerInfo.expected).reverse
        dir := { (closedDir f).afterRead packedNow packedNow with
          className := b! "TFile", name := path, keys := f.dir.keys.map Key.listed }
        img := image f'.trace } := by
  obtain ⟨rfl, hlim⟩ := create_ok hw.create hw.small.end_
  have hi0 := Inv.created (path := path) (ids := ids) hlim
  have hi := runs_inv hi0 hw.runs
  have hk0 : InfosOk (createdFile path ids).sinfos (createdFile path ids).ids := InfosOk.nil _
  have hk := runs_infosOk hh.process hh.records hi0 hw.runs hk0
  have hfit := keys_fit hi0 rfl hw.runs hh.objects
  obtain ⟨s, i, buf, hc⟩ := hi.close hw.close
  have hk1 : InfosOk (closing1 f).sinfos (closing1 f).ids := hk
  have hko : InfosOk s i := findDeep_infosOk hh.process hc.deps hk1
  have es : f'.sinfos = s := by rw [hc.file]; rfl
  have ei : f'.ids = i := by rw [hc.file]; rfl
  refine ⟨hi0, rfl, hi, hfit, s, i, buf, hc, hko, es, ei, fun dec fuel hfuel => ?_⟩
  have := hc.open_file hh.process hi hw.close.2.end_ hh.text (pathLen_short.1 hh.short) hfit hko
    (by rw [← ei]; exact hh.apart) hh.listBytes (by rw [← es]; exact hh.listLength) dec (fuel - 3)
  rw [es]
  rw [show fuel - 3 + 3 = fuel by omega] at this
  exact this

theorem getElem?_of_map {α β γ} {f : α → γ} {g : β → γ} {l : List α} {m : List β}
    (h : l.map f = m.map g) {j : Nat} {b : β} (hb : m[j]? = some b) :
    ∃ a, l[j]? = some a ∧ f a = g b := by
  have := congrArg (·[j]?) h
  simp only [List.getElem?_map, hb, Option.map_some] at this
  cases ha : l[j]? with
  | none => rw [ha] at this; cases this
  | some a => rw [ha] at this; exact ⟨a, rfl, by simpa using this⟩

theorem countP_of_map {α β γ} {f : α → γ} {g : β → γ} (p : γ → Bool) {l : List α} {m : List β}
    (h : l.map f = m.map g) (j : Nat) :
    (l.take j).countP (fun a => p (f a)) = (m.take j).countP (fun b => p (g b)) := by
  have h' := congrArg (fun x => (x.take j).countP p) h
  simp only [← List.map_take, List.countP_map] at h'
  exact h'

/-- The names of keys and objects. -/
theorem keys_names {env : Env} {path : Str} {ops : List Op} {f0 f : FileW} (hi : Inv path f0)
    (h0 : f0.dir.keys = []) (h : Runs env f0 ops f) :
    f.dir.keys.map Key.name = (acceptedPuts env f0 ops).map Prod.fst := by
  have := congrArg (List.map Prod.fst) (keys_accepted hi h0 h)
  simpa [List.map_map, Function.comp_def] using this

/-- C15: a file that was created, filled by any calls and closed opens again, and its directory lists
the objects whose `put` succeeded, no others, in the order of the calls, each with its class, title and
cycle. -/
theorem C15_reopen {env : Env} {path : Str} {ids : Nat} {ops : List Op} {f0 f f' : FileW}
    (hw : Written env path ids ops f0 f f') (hh : Holds env path ops f0 f')
    (hfew : FewPerName (acceptedPuts env f0 ops)) (dec : Decoders) (fuel : Nat) (hfuel : 3 ≤ fuel) :
    ∃ r, openFile dec fuel (image f'.trace) = .ok r ∧
      r.keysName = (acceptedPuts env f0 ops).map Prod.fst ∧
      r.dir.keys.map (fun k => (k.name, k.cls, k.title)) =
        (acceptedPuts env f0 ops).map (fun p => (p.1, shownClass p.2.cls, p.2.title)) ∧
      (∀ j k, r.dir.keys[j]? = some k → k.cycle = expectedCycle (acceptedPuts env f0 ops) j) ∧
      r.dir.name = path ∧ r.header = f'.header := by
  obtain ⟨hi0, hk0, hi, hfit, s, i, buf, hc, hko, es, ei, hop⟩ := hw.opened hh
  refine ⟨_, hop dec fuel hfuel, ?_, ?_, ?_, rfl, rfl⟩
  · show (f.dir.keys.map Key.listed).map Key.name = _
    rw [List.map_map, ← keys_names hi0 hk0 hw.runs]
    rfl
  · show (f.dir.keys.map Key.listed).map _ = _
    have := congrArg (List.map fun x : Str × Str × Str => (x.1, shownClass x.2.1, x.2.2))
      (keys_accepted hi0 hk0 hw.runs)
    simp only [List.map_map] at this ⊢
    exact this
  · intro j k hj
    have hj : (f.dir.keys.map Key.listed)[j]? = some k := hj
    rw [List.getElem?_map] at hj
    obtain ⟨k0, hk0', rfl⟩ := Option.map_eq_some_iff.1 hj
    have hn := keys_names hi0 hk0 hw.runs
    obtain ⟨p, hp, hpn⟩ := getElem?_of_map hn.symm hk0'
    have hcount := countP_of_map (fun n => decide (n = k0.name)) hn j
    have hle : ((acceptedPuts env f0 ops).take j).countP (fun q => decide (q.1 = k0.name)) < 32767 := by
      have h1 := hfew k0.name
      have hjl := (List.getElem?_eq_some_iff.1 hp).1
      have e : (acceptedPuts env f0 ops) = (acceptedPuts env f0 ops).take j ++
          p :: (acceptedPuts env f0 ops).drop (j + 1) := by
        rw [← (List.getElem?_eq_some_iff.1 hp).2]; simp
      have h2 : (acceptedPuts env f0 ops).countP (fun q => decide (q.1 = k0.name)) =
          ((acceptedPuts env f0 ops).take j).countP (fun q => decide (q.1 = k0.name)) +
          (p :: (acceptedPuts env f0 ops).drop (j + 1)).countP (fun q => decide (q.1 = k0.name)) := by
        conv => lhs; rw [e]
        rw [List.countP_append]
      rw [List.countP_cons_of_pos (by simpa using hpn)] at h2
      omega
    have := cycles_ok hi0 hk0 hw.runs j k0 hk0' (by rw [hcount]; exact hle)
    show k0.cycle = _
    unfold expectedCycle
    rw [this, hcount, hp]
    simp only [hpn]

/-! ### Looking a name up -/

theorem chooseKey_last {name : Str} {keys : List Key} {j : Nat} {k : Key}
    (hk : keys[j]? = some k) (hn : k.name = name)
    (hlater : ∀ i q, j < i → keys[i]? = some q → q.name ≠ name)
    (hs : (keys.filter (fun q => q.name = name)).Pairwise fun a b => a.cycle ≤ b.cycle) :
    chooseKey name keys = .ok k := by
  have hj := (List.getElem?_eq_some_iff.1 hk).1
  have e : keys = keys.take j ++ k :: keys.drop (j + 1) := by
    rw [← (List.getElem?_eq_some_iff.1 hk).2]; simp
  have hd : (keys.drop (j + 1)).filter (fun q => q.name = name) = [] := by
    rw [List.filter_eq_nil_iff]
    intro q hq
    obtain ⟨i, hi⟩ := List.mem_iff_getElem?.1 hq
    rw [List.getElem?_drop] at hi
    simpa using hlater _ q (by omega) hi
  have ef : keys.filter (fun q => q.name = name) =
      (keys.take j).filter (fun q => q.name = name) ++ [k] := by
    conv => lhs; rw [e]
    rw [List.filter_append, List.filter_cons_of_pos (by simpa using hn), hd]
  have hm : ((keys.filter (fun q => q.name = name)).mergeSort
      (fun a b => decide (a.cycle ≤ b.cycle))) = keys.filter (fun q => q.name = name) :=
    List.mergeSort_of_pairwise (hs.imp (by simp))
  unfold chooseKey
  rw [ef] at hm ⊢
  cases hl : (keys.take j).filter (fun q => q.name = name) with
  | nil => rfl
  | cons a l =>
    rw [hl] at hm
    cases l with
    | nil =>
      show (match ([a, k].mergeSort (fun a b => decide (a.cycle ≤ b.cycle))).getLast? with
        | some k => Except.ok k | none => .error .panic : Res Key) = _
      rw [show [a, k] = [a] ++ [k] from rfl, hm]
      rfl
    | cons b l =>
      show (match ((a :: b :: l ++ [k]).mergeSort (fun a b => decide (a.cycle ≤ b.cycle))).getLast? with
        | some k => Except.ok k | none => .error .panic : Res Key) = _
      rw [hm, List.getLast?_concat]

theorem CyclesOk.pairwise {keys : List Key} (hc : CyclesOk keys) {name : Str}
    (hn : keys.countP (fun q => q.name = name) ≤ 32767) :
    (keys.filter (fun q => q.name = name)).Pairwise fun a b => a.cycle ≤ b.cycle := by
  suffices h : keys.Pairwise fun a b => a.name = name → b.name = name → a.cycle ≤ b.cycle by
    rw [List.pairwise_filter]
    exact h.imp fun h ha hb => h (by simpa using ha) (by simpa using hb)
  have bound : ∀ i k, keys[i]? = some k → k.name = name →
      (keys.take i).countP (fun q => q.name = name) < 32767 := by
    intro i k hk hkn
    have e : keys = keys.take i ++ k :: keys.drop (i + 1) := by
      have hlt := (List.getElem?_eq_some_iff.1 hk).1
      rw [← (List.getElem?_eq_some_iff.1 hk).2]; simp
    have h2 : keys.countP (fun q => decide (q.name = name)) =
        (keys.take i).countP (fun q => decide (q.name = name)) +
        (k :: keys.drop (i + 1)).countP (fun q => decide (q.name = name)) := by
      conv => lhs; rw [e]
      rw [List.countP_append]
    rw [List.countP_cons_of_pos (by simpa using hkn)] at h2
    omega
  rw [List.pairwise_iff_getElem]
  intro i j hi hj hij ha hb
  have h1 := hc i _ (List.getElem?_eq_getElem hi)
    (by rw [ha]; exact bound i _ (List.getElem?_eq_getElem hi) ha)
  have h2 := hc j _ (List.getElem?_eq_getElem hj)
    (by rw [hb]; exact bound j _ (List.getElem?_eq_getElem hj) hb)
  rw [h1, h2, ha, hb]
  have : keys.take i <+: keys.take j := List.take_prefix_take_left (by omega)
  have := this.sublist.countP_le (p := fun q => decide (q.name = name))
  omega

theorem findKey_of {r : FileR} {name : Str} (hn : (59 : Byte) ∉ name) :
    r.findKey name = chooseKey name r.dir.keys := by
  unfold FileR.findKey decodeNameCycle
  rw [List.count_eq_zero.2 hn]
  rfl

theorem listed_pairwise {keys : List Key} {name : Str}
    (h : (keys.filter (fun q => q.name = name)).Pairwise fun a b => a.cycle ≤ b.cycle) :
    ((keys.map Key.listed).filter (fun q => q.name = name)).Pairwise fun a b => a.cycle ≤ b.cycle := by
  rw [List.filter_map, List.pairwise_map]
  exact h

/-- `C16_last`, with the key as it was when the file was written. -/
theorem last_key {env : Env} {path : Str} {ids : Nat} {ops : List Op} {f0 f f' : FileW}
    (hw : Written env path ids ops f0 f f') (hh : Holds env path ops f0 f')
    (hfew : FewPerName (acceptedPuts env f0 ops)) (dec : Decoders) (fuel : Nat) (hfuel : 3 ≤ fuel)
    {j : Nat} {name : Str} {obj : PutObj} (hp : (acceptedPuts env f0 ops)[j]? = some (name, obj))
    (hlast : ∀ i q, j < i → (acceptedPuts env f0 ops)[i]? = some q → q.1 ≠ name)
    (hname : (59 : Byte) ∉ name) :
    ∃ r k n w, (∃ k0, f.dir.keys[j]? = some k0 ∧ k0.buffer = w.p ∧ k = k0.listed) ∧ openFile dec fuel (image f'.trace) = .ok r ∧ r.findKey name = .ok k ∧
      k.name = name ∧ k.cls = shownClass obj.cls ∧ k.title = obj.title ∧
      k.cycle = expectedCycle (acceptedPuts env f0 ops) j ∧
      obj.marshal (WBuffer.new k.keyLen.toNat) = .ok (n, w) ∧ k.load dec r.img = .ok w.p ∧
      r.getObject dec fuel name =
        match factory fuel (shownClass obj.cls) with
        | none => .error (.err .classNotRegistered)
        | some m => readWith m w.p k.keyLen.toNat := by
  obtain ⟨hi0, hk0, hi, hfit, s, i, buf, hc, hko, es, ei, hop⟩ := hw.opened hh
  obtain ⟨r, hr, -, -, hcy, -, -⟩ := C15_reopen hw hh hfew dec fuel hfuel
  have hr' := hr.symm.trans (hop dec fuel hfuel)
  injection hr' with hr'
  have hrk : r.dir.keys = f.dir.keys.map Key.listed := by rw [hr']
  have hri : r.img = image f'.trace := by rw [hr']
  have hka := keys_accepted hi0 hk0 hw.runs
  obtain ⟨k, hk, e⟩ := getElem?_of_map hka hp
  injection e with e1 e2
  injection e2 with e2 e3
  have hkl : r.dir.keys[j]? = some k.listed := by rw [hrk, List.getElem?_map, hk]; rfl
  obtain ⟨n, w, hm, hbuf⟩ := payloads_accepted hi0 hk0 hw.runs j _ k hp hk
  have hn := keys_names hi0 hk0 hw.runs
  have hfind : r.findKey name = .ok k.listed := by
    rw [findKey_of hname]
    refine chooseKey_last hkl e1 ?_ ?_
    · intro i q hij hq
      rw [hrk, List.getElem?_map] at hq
      obtain ⟨k', hk', rfl⟩ := Option.map_eq_some_iff.1 hq
      obtain ⟨q', hq', e'⟩ := getElem?_of_map hn.symm hk'
      have := hlast i q' hij hq'
      rw [e'] at this
      exact this
    · rw [hrk]
      refine listed_pairwise ((cycles_ok hi0 hk0 hw.runs).pairwise ?_)
      have := countP_of_map (fun n => decide (n = name)) hn f.dir.keys.length
      have hlen : (acceptedPuts env f0 ops).length = f.dir.keys.length := by
        simpa using (congrArg List.length hn).symm
      rw [List.take_length, ← hlen, List.take_length] at this
      rw [this]
      exact hfew name
  have hko' := hi.keys k (List.mem_of_getElem? hk)
  have hload : k.listed.load dec r.img = .ok w.p := by
    rw [hri, ← hbuf]
    have h26 : 26 ≤ kl k.name k.title k.cls := (keyLenFor_ge _ _ _ false false).1
    have hlo := hi.good.lo
    have hkl := hko'.lo
    have hdp := dirPos_ge path
    have hkey : k.keyLen = kl k.name k.title k.cls := by rw [hko'.form]; rfl
    have : (k.afterRead packedNow).load dec (image f'.trace) = .ok k.buffer := by
      have hnb : k.nBytes = kl k.name k.title k.cls + k.buffer.length := by rw [hko'.form]; rfl
      have hhi := hko'.hi
      have hend : f.header.end_ ≤ 2000000000 := by
        have := hc.ends hi
        have : f'.header.end_ ≤ 2000000000 := hw.close.2.end_
        omega
      refine Key.load_plain (k := k) (by rw [hko'.form]; rfl) (by rw [hko'.form]; rfl) (by omega) (by omega) (by omega) (by omega) ?_
      have hmem := hko'.written ⟨(k.seekKey + k.keyLen).toNat, k.buffer⟩
        (List.mem_cons_of_mem _ (List.mem_singleton.2 rfl))
      exact (Later.close .nil hw.close).stored hi hmem (by
        show _ ≤ (((k.seekKey + k.keyLen).toNat : Nat) : Int)
        omega)
    exact this
  refine ⟨r, k.listed, n, w, ⟨k, hk, hbuf, rfl⟩, hr, hfind, e1, by show shownClass k.cls = _; rw [e2], e3, hcy j _ hkl,
    hm, hload, ?_⟩
  unfold FileR.getObject
  rw [Res.bind_ok hfind]
  unfold Key.object
  rw [Res.bind_ok hload]
  have : k.listed.cls = shownClass obj.cls := by show shownClass k.cls = _; rw [e2]
  rw [this]
  cases factory fuel (shownClass obj.cls) <;> rfl

/-- C16: after close, a name finds the object that was put last under it: the key has its class and
title, its bytes are those the object was written as, and `get_object` is the result of the reader
registered for the class applied to these bytes. -/
theorem C16_last {env : Env} {path : Str} {ids : Nat} {ops : List Op} {f0 f f' : FileW}
    (hw : Written env path ids ops f0 f f') (hh : Holds env path ops f0 f')
    (hfew : FewPerName (acceptedPuts env f0 ops)) (dec : Decoders) (fuel : Nat) (hfuel : 3 ≤ fuel)
    {j : Nat} {name : Str} {obj : PutObj} (hp : (acceptedPuts env f0 ops)[j]? = some (name, obj))
    (hlast : ∀ i q, j < i → (acceptedPuts env f0 ops)[i]? = some q → q.1 ≠ name)
    (hname : (59 : Byte) ∉ name) :
    ∃ r k n w, openFile dec fuel (image f'.trace) = .ok r ∧ r.findKey name = .ok k ∧
      k.name = name ∧ k.cls = shownClass obj.cls ∧ k.title = obj.title ∧
      k.cycle = expectedCycle (acceptedPuts env f0 ops) j ∧
      obj.marshal (WBuffer.new k.keyLen.toNat) = .ok (n, w) ∧ k.load dec r.img = .ok w.p ∧
      r.getObject dec fuel name =
        match factory fuel (shownClass obj.cls) with
        | none => .error (.err .classNotRegistered)
        | some m => readWith m w.p k.keyLen.toNat := by
  obtain ⟨r, k, n, w, -, h⟩ := last_key hw hh hfew dec fuel hfuel hp hlast hname
  exact ⟨r, k, n, w, h⟩

/-- C16, names that were never put: an error, never another object. -/
theorem C16_missing {env : Env} {path : Str} {ids : Nat} {ops : List Op} {f0 f f' : FileW}
    (hw : Written env path ids ops f0 f f') (hh : Holds env path ops f0 f')
    (dec : Decoders) (fuel : Nat) (hfuel : 3 ≤ fuel)
    {name : Str} (hno : ∀ p ∈ acceptedPuts env f0 ops, p.1 ≠ name) (hname : (59 : Byte) ∉ name) :
    ∃ r, openFile dec fuel (image f'.trace) = .ok r ∧
      r.getObject dec fuel name = .error (.err .keyNotInFile) := by
  obtain ⟨hi0, hk0, hi, hfit, s, i, buf, hc, hko, es, ei, hop⟩ := hw.opened hh
  refine ⟨_, hop dec fuel hfuel, ?_⟩
  unfold FileR.getObject
  rw [findKey_of hname]
  have : (f.dir.keys.map Key.listed).filter (fun q => q.name = name) = [] := by
    rw [List.filter_eq_nil_iff]
    intro q hq
    obtain ⟨k, hk, rfl⟩ := List.mem_map.1 hq
    have h1 := List.mem_map_of_mem (f := Key.name) hk
    rw [keys_names hi0 hk0 hw.runs] at h1
    obtain ⟨p, hp, e⟩ := List.mem_map.1 h1
    have := hno p hp
    rw [e] at this
    show ¬ decide (k.name = name) = true
    simpa using this
  unfold chooseKey
  simp only [this]
  rfl

/-- C15, the limit on the path: with a longer one, everything is written without complaint, yet the
file cannot be opened. -/
theorem C15_long_path {env : Env} {path : Str} {ids : Nat} {ops : List Op} {f0 f f' : FileW}
    (hw : Written env path ids ops f0 f f') (ht : utf8 path = true) (hl : 478 < path.length)
    (dec : Decoders) (fuel : Nat) :
    openFile dec fuel (image f'.trace) = .error (.err .cantReadDirectoryInfo) := by
  obtain ⟨rfl, hlim⟩ := create_ok hw.create hw.small.end_
  have hi := runs_inv (Inv.created (path := path) (ids := ids) hlim) hw.runs
  obtain ⟨s, i, buf, hc⟩ := hi.close hw.close
  obtain ⟨data, r1, r2⟩ := hc.open_header hi
  have h3 := hc.open_dir hi hw.close.2.end_ ht
  rw [if_pos (by
    have := mt (pathLen_short (path := path)).2 (by omega)
    omega)] at h3
  unfold openFile
  rw [Res.bind_ok r1, Res.bind_ok r2, h3]
  rfl

/-- C45, the part that holds: a name without `;` whose `put` succeeded is found after reopening. With a
`;` it is accepted and cannot be looked up (`C45_semicolon_unreadable`). -/
theorem C45_lookup_partial {env : Env} {path : Str} {ids : Nat} {ops : List Op} {f0 f f' : FileW}
    (hw : Written env path ids ops f0 f f') (hh : Holds env path ops f0 f')
    (hfew : FewPerName (acceptedPuts env f0 ops)) (dec : Decoders) (fuel : Nat) (hfuel : 3 ≤ fuel)
    {p : Str × PutObj} (hp : p ∈ acceptedPuts env f0 ops) (hname : (59 : Byte) ∉ p.1) :
    ∃ r k bs, openFile dec fuel (image f'.trace) = .ok r ∧ r.findKey p.1 = .ok k ∧ k.name = p.1 ∧
      k.load dec r.img = .ok bs := by
  have hc : 0 < (acceptedPuts env f0 ops).countP (fun q => decide (q.1 = p.1)) :=
    List.countP_pos_iff.2 ⟨p, hp, by simp⟩
  obtain ⟨j, q, hq, hqn, hcount⟩ := last_counted hc
  have hqn : q.1 = p.1 := by simpa using hqn
  have hlast : ∀ i x, j < i → (acceptedPuts env f0 ops)[i]? = some x → x.1 ≠ q.1 := by
    intro i x hij hx hxn
    have hjl := (List.getElem?_eq_some_iff.1 hq).1
    have e : (acceptedPuts env f0 ops) = (acceptedPuts env f0 ops).take j ++
        q :: (acceptedPuts env f0 ops).drop (j + 1) := by
      rw [← (List.getElem?_eq_some_iff.1 hq).2]; simp
    have hx' : x ∈ (acceptedPuts env f0 ops).drop (j + 1) := by
      refine List.mem_iff_getElem?.2 ⟨i - (j + 1), ?_⟩
      rw [List.getElem?_drop, show j + 1 + (i - (j + 1)) = i by omega]
      exact hx
    have h2 : (acceptedPuts env f0 ops).countP (fun x => decide (x.1 = p.1)) =
        ((acceptedPuts env f0 ops).take j).countP (fun x => decide (x.1 = p.1)) +
        (q :: (acceptedPuts env f0 ops).drop (j + 1)).countP (fun x => decide (x.1 = p.1)) := by
      conv => lhs; rw [e]
      rw [List.countP_append]
    rw [List.countP_cons_of_pos (by simpa using hqn)] at h2
    have := List.countP_pos_iff (p := fun x : Str × PutObj => decide (x.1 = p.1)).2
      ⟨x, hx', by simp [hxn, hqn]⟩
    omega
  obtain ⟨r, k, n, w, h1, h2, h3, -, -, -, -, h4, -⟩ :=
    C16_last hw hh hfew dec fuel hfuel (j := j) (name := q.1) (obj := q.2) hq hlast
      (by rw [hqn]; exact hname)
  rw [hqn] at h2 h3
  exact ⟨r, k, w.p, h1, h2, h3, h4⟩

/-! ### The hypotheses can be met -/

theorem demo_written : Written demoEnv (b! "d.root") 10 demoOps
    (createFile (FileW.initial (b! "d.root") 10)).2 demoOpen demoClosed :=
  ⟨ok_pair (by decide +kernel), below2GB_iff.1 (by decide +kernel), runs_of_check (by decide +kernel),
    demo_closes⟩

theorem demo_describable : demoInfo.Describable where
  named := ⟨by decide, by decide⟩
  chksum := by decide
  clsver := by decide
  elems := by
    intro e he
    rw [List.mem_singleton.1 he]
    refine ⟨?_, by decide, by decide⟩
    constructor <;> first | decide | (intro; contradiction) | exact .inl (by decide)
  few := by decide

theorem demo_holds : Holds demoEnv (b! "d.root") demoOps
    (createFile (FileW.initial (b! "d.root") 10)).2 demoClosed where
  process := {
    dictionary := by
      intro name vers s h
      simp only [demoEnv] at h
      split at h
      · injection h with h; rw [← h]; exact demo_describable
      · cases h
    addresses := by intro i j h; simp only [demoEnv] at h; omega }
  text := by decide
  short := by decide
  objects := by
    have h : ((acceptedPuts demoEnv (createFile (FileW.initial (b! "d.root") 10)).2 demoOps).all fun p =>
      utf8 p.1 && utf8 p.2.title && utf8 p.2.cls &&
        decide (p.1.length + p.2.title.length + p.2.cls.length ≤ 32700)) = true := by decide +kernel
    intro p hp
    have := List.all_eq_true.1 h p hp
    simp only [Bool.and_eq_true, decide_eq_true_eq] at this
    exact ⟨this.1.1.1, this.1.1.2, this.1.2, this.2⟩
  records := by
    intro op hop
    simp only [demoOps, List.mem_cons, List.not_mem_nil, or_false] at hop
    rcases hop with rfl | rfl | rfl | rfl <;> trivial
  listBytes := by decide +kernel
  listLength := by decide +kernel
  apart := by
    have : demoClosed.ids ≤ 1000 := by decide +kernel
    intro j
    show _ ≤ 2 * j + 1000
    omega

theorem demo_accepted :
    (acceptedPuts demoEnv (createFile (FileW.initial (b! "d.root") 10)).2 demoOps).map Prod.fst =
      [b! "o", b! "o"] := by decide +kernel

theorem demo_few :
    FewPerName (acceptedPuts demoEnv (createFile (FileW.initial (b! "d.root") 10)).2 demoOps) := by
  intro name
  have h : (acceptedPuts demoEnv (createFile (FileW.initial (b! "d.root") 10)).2 demoOps).length = 2 := by
    decide +kernel
  have := List.countP_le_length (p := fun q : Str × PutObj => decide (q.1 = name))
    (l := acceptedPuts demoEnv (createFile (FileW.initial (b! "d.root") 10)).2 demoOps)
  omega

example (dec : Decoders) : ∃ r, openFile dec 3 (image demoClosed.trace) = .ok r ∧
    r.keysName = [b! "o", b! "o"] := by
  obtain ⟨r, h, hk, -⟩ := C15_reopen demo_written demo_holds demo_few dec 3 (Nat.le_refl _)
  exact ⟨r, h, hk.trans demo_accepted⟩

/-- The last object of the small session meets the hypotheses of `C16_last`. -/
example (dec : Decoders) : ∃ r k bs, openFile dec 3 (image demoClosed.trace) = .ok r ∧
    r.findKey (b! "o") = .ok k ∧ k.cycle = 2 ∧ k.load dec r.img = .ok bs := by
  obtain ⟨p, hp, hpn⟩ := getElem?_of_map (f := Prod.fst) (g := _root_.id) (j := 1) (b := b! "o")
    (demo_accepted.trans (List.map_id _).symm) rfl
  have hlen : (acceptedPuts demoEnv (createFile (FileW.initial (b! "d.root") 10)).2 demoOps).length =
      2 := by decide +kernel
  obtain ⟨r, k, n, w, h1, h2, -, -, -, h3, -, h5, -⟩ := C16_last demo_written demo_holds demo_few dec 3
    (Nat.le_refl _) (name := p.1) (obj := p.2) hp (fun i q hi hq => by
      have := (List.getElem?_eq_some_iff.1 hq).1
      omega) (by rw [hpn]; decide)
  rw [hpn] at h2
  exact ⟨r, k, w.p, h1, h2, by rw [h3]; decide +kernel, h5⟩

example (dec : Decoders) : ∃ r, openFile dec 3 (image demoClosed.trace) = .ok r ∧
    r.getObject dec 3 (b! "x") = .error (.err .keyNotInFile) := by
  refine C16_missing demo_written demo_holds dec 3 (Nat.le_refl _) (fun p hp => ?_) (by decide)
  have := List.mem_map_of_mem (f := Prod.fst) hp
  rw [demo_accepted] at this
  simp at this
  rw [this]
  decide

example : ∃ f0 f f', Written demoEnv (List.replicate 479 97) 0 [] f0 f f' ∧
    utf8 (List.replicate 479 97) = true :=
  ⟨_, _, _, ⟨ok_pair (by decide +kernel), below2GB_iff.1 (by decide +kernel), .nil,
    ⟨ok_pair (by decide +kernel), below2GB_iff.1 (by decide +kernel)⟩⟩, by decide +kernel⟩

end Verif
