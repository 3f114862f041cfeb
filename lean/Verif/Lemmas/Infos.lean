import Verif.Lemmas.Open
import Verif.Lemmas.Streamers
import Verif.Spec.Reopen
namespace Verif

/-! ### Records are storable whatever their numbers -/

theorem StreamerElement.Storable.withId {e : StreamerElement} (h : e.Storable) (n : Nat) :
    StreamerElement.Storable { e with id := n } :=
  ⟨h.named, h.noRange, h.etype, h.etypeFits, h.notBool, h.esize, h.arrLen, h.arrDim, h.five, h.maxIdx,
    h.ename, h.xmin, h.xmax, h.factor⟩

theorem Streamer.Storable.withId {s : Streamer} (h : s.Storable) (n : Nat) :
    (s.withId n).Storable := by
  cases s with
  | stlString e v c => exact h
  | string e => exact StreamerElement.Storable.withId h n
  | objectAny e => exact StreamerElement.Storable.withId h n
  | object e => exact StreamerElement.Storable.withId h n
  | objectPointer e => exact StreamerElement.Storable.withId h n
  | basicType e => exact ⟨StreamerElement.Storable.withId h.1 n, h.2⟩
  | basicPointer e v a c => exact ⟨StreamerElement.Storable.withId h.1 n, h.2⟩
  | stl e v c => exact ⟨StreamerElement.Storable.withId h.1 n, h.2⟩
  | base e v => exact ⟨StreamerElement.Storable.withId h.1 n, h.2⟩

theorem mem_cloneElems {n : Nat} {es : List Streamer} {e : Streamer} (h : e ∈ cloneElems n es) :
    ∃ e' ∈ es, ∃ m, e = e'.withId m := by
  induction es generalizing n with
  | nil => cases h
  | cons a es ih =>
    rcases List.mem_cons.1 h with rfl | h
    · exact ⟨a, List.mem_cons_self .., n, rfl⟩
    · obtain ⟨e', he', m, rfl⟩ := ih h
      exact ⟨e', List.mem_cons_of_mem _ he', m, rfl⟩

theorem cloneElems_length (n : Nat) (es : List Streamer) : (cloneElems n es).length = es.length := by
  induction es generalizing n with
  | nil => rfl
  | cons a es ih => simp [cloneElems, ih]

theorem StreamerInfo.Describable.clone {s : StreamerInfo} (h : s.Describable) (n m : Nat) :
    StreamerInfo.Describable { s.cloneAt n with id := m } := by
  refine ⟨h.named, h.chksum, h.clsver, fun e he => ?_, ?_⟩
  · obtain ⟨e', he', k, rfl⟩ := mem_cloneElems he
    exact (h.elems e' he').withId k
  · show (cloneElems n s.elems).length < _
    rw [cloneElems_length]; exact h.few

/-! ### Numbers -/

theorem withId_id (s : Streamer) (n : Nat) : (s.withId n).element.id = n := by cases s <;> rfl

theorem cloneElems_ids (n : Nat) (es : List Streamer) :
    (cloneElems n es).map (fun e => e.element.id) = List.range' n es.length := by
  induction es generalizing n with
  | nil => rfl
  | cons a es ih => simp [cloneElems, ih, withId_id, List.range'_succ]

/-- The numbers of a fresh copy. -/
theorem clone_ids (s : StreamerInfo) (n m : Nat) :
    StreamerInfo.ids { s.cloneAt n with id := m } = m :: List.range' n s.elems.length := by
  show m :: (cloneElems n s.elems).map (fun e => e.element.id) = _
  rw [cloneElems_ids]

/-- All the records can be held by the format; their numbers are distinct and have been handed out. -/
structure InfosOk (l : List StreamerInfo) (n : Nat) : Prop where
  ok : ∀ s ∈ l, s.Describable
  nodup : (l.flatMap StreamerInfo.ids).Nodup
  below : ∀ a ∈ l.flatMap StreamerInfo.ids, a < n

theorem InfosOk.mono {l : List StreamerInfo} {n m : Nat} (h : InfosOk l n) (hm : n ≤ m) : InfosOk l m :=
  ⟨h.ok, h.nodup, fun a ha => Nat.lt_of_lt_of_le (h.below a ha) hm⟩

theorem InfosOk.nil (n : Nat) : InfosOk [] n :=
  ⟨(fun s hs => by cases hs), List.nodup_nil, (fun a ha => by cases ha)⟩

theorem InfosOk.add {l : List StreamerInfo} {n m : Nat} {s : StreamerInfo} (h : InfosOk l n)
    (hs : s.Describable) (hn : s.ids.Nodup) (hr : ∀ a ∈ s.ids, n ≤ a ∧ a < m) (hm : n ≤ m) :
    InfosOk (addInfo l s) m := by
  unfold addInfo
  split
  · exact h.mono hm
  · refine ⟨fun t ht => ?_, ?_, fun a ha => ?_⟩
    · rcases List.mem_append.1 ht with ht | ht
      · exact h.ok t ht
      · rw [List.mem_singleton.1 ht]; exact hs
    · rw [List.flatMap_append, List.nodup_append]
      refine ⟨h.nodup, by simpa using hn, fun a ha b hb => ?_⟩
      have h1 := h.below a ha
      have h2 := (hr b (by simpa using hb)).1
      omega
    · rw [List.flatMap_append] at ha
      rcases List.mem_append.1 ha with ha | ha
      · exact Nat.lt_of_lt_of_le (h.below a ha) hm
      · exact (hr a (by simpa using ha)).2

theorem InfosOk.addClone {l : List StreamerInfo} {n : Nat} {s : StreamerInfo} (h : InfosOk l n)
    (hs : s.Describable) : InfosOk (addInfo l (s.cloneAt n)) (n + s.elems.length + 1) := by
  have e : (s.cloneAt n) = { s.cloneAt n with id := n + s.elems.length } := rfl
  rw [e]
  refine h.add (hs.clone n _) ?_ ?_ (by omega)
  · rw [clone_ids, List.nodup_cons]
    refine ⟨?_, List.nodup_range'⟩
    rw [List.mem_range'_1]; omega
  · rw [clone_ids]
    intro a ha
    rcases List.mem_cons.1 ha with rfl | ha
    · omega
    · rw [List.mem_range'_1] at ha; omega

theorem lookup_ok {env : Env} {name : Str} {vers : Int} {n m : Nat} {si : StreamerInfo}
    (h : env.lookup name vers n = .ok (si, m)) :
    ∃ s, env.db name vers = some s ∧ si = { s.cloneAt n with id := n + s.elems.length + 1 } ∧
      m = n + s.elems.length + 2 := by
  unfold Env.lookup at h
  cases hd : env.db name vers with
  | none => rw [hd] at h; cases h
  | some s => rw [hd] at h; cases h; exact ⟨s, rfl, rfl, rfl⟩

theorem InfosOk.addLookup {env : Env} (he : env.Sound) {l : List StreamerInfo} {name : Str}
    {vers : Int} {n m : Nat} {si : StreamerInfo} (h : InfosOk l n)
    (hl : env.lookup name vers n = .ok (si, m)) : InfosOk (addInfo l si) m := by
  obtain ⟨s, hd, rfl, rfl⟩ := lookup_ok hl
  refine h.add ((he.dictionary _ _ _ hd).clone n _) ?_ ?_ (by omega)
  · rw [clone_ids, List.nodup_cons]
    refine ⟨?_, List.nodup_range'⟩
    rw [List.mem_range'_1]; omega
  · rw [clone_ids]
    intro a ha
    rcases List.mem_cons.1 ha with rfl | ha
    · omega
    · rw [List.mem_range'_1] at ha; omega

/-! ### The search for dependencies only hands out numbers -/

theorem foldlM_mono {α} {g : VisitState → α → Res VisitState} {l : List α} {st st' : VisitState}
    (hg : ∀ st a st', g st a = .ok st' → st.ids ≤ st'.ids)
    (h : l.foldlM g st = .ok st') : st.ids ≤ st'.ids := by
  induction l generalizing st with
  | nil => cases h; exact Nat.le_refl _
  | cons a l ih =>
    rw [List.foldlM_cons] at h
    obtain ⟨s1, h1, h2⟩ := Res.ok_bind.1 h
    exact Nat.le_trans (hg _ _ _ h1) (ih h2)

theorem visitElem_mono {env : Env} {run : List Streamer → VisitState → Res VisitState}
    (hr : ∀ es st st', run es st = .ok st' → st.ids ≤ st'.ids) {se : Streamer} {st st' : VisitState}
    (h : visitElem env run se st = .ok st') : st.ids ≤ st'.ids := by
  unfold visitElem at h
  split at h
  · cases h; exact Nat.le_refl _
  · obtain ⟨d, -, h⟩ := Res.ok_bind.1 h
    simp only at h
    split at h
    · cases h; exact Nat.le_refl _
    · split at h
      · cases h; exact Nat.le_refl _
      · obtain ⟨⟨si, n⟩, h1, h2⟩ := Res.ok_bind.1 h
        obtain ⟨s, -, -, rfl⟩ := lookup_ok h1
        have := hr _ _ _ h2
        simp only at this
        omega

theorem visitElems_mono {env : Env} (fuel : Nat) {es : List Streamer} {st st' : VisitState}
    (h : visitElems env fuel es st = .ok st') : st.ids ≤ st'.ids := by
  induction fuel generalizing es st st' with
  | zero =>
    unfold visitElems at h
    split at h
    · cases h; exact Nat.le_refl _
    · cases h
  | succ fuel ih =>
    unfold visitElems at h
    exact foldlM_mono (fun st a st' h => visitElem_mono (fun _ _ _ h => ih h) h) h

theorem visitInfos_mono {env : Env} {sis : List StreamerInfo} {n m : Nat} {ds : List (Str × Int)}
    (h : visitInfos env sis n = .ok (ds, m)) : n ≤ m := by
  unfold visitInfos at h
  generalize ([] : List (Str × Int)) = ds0 at h
  induction sis generalizing n ds0 with
  | nil => cases h; exact Nat.le_refl _
  | cons s sis ih =>
    rw [List.foldlM_cons] at h
    obtain ⟨⟨d1, n1⟩, h1, h2⟩ := Res.ok_bind.1 h
    obtain ⟨st, h3, h4⟩ := Res.ok_bind.1 h1
    cases h4
    have := visitElems_mono 10 h3
    exact Nat.le_trans this (ih _ h2)

/-! ### Along a session -/

theorem addDeps_infosOk {env : Env} (he : env.Sound) {ds : List (Str × Int)} {f f' : FileW} {u : Unit}
    (h : addDeps env ds f = (.ok u, f')) (hi : InfosOk f.sinfos f.ids) :
    InfosOk f'.sinfos f'.ids := by
  induction ds generalizing f with
  | nil =>
    obtain ⟨-, rfl⟩ := Fs.ok_pure.1 h
    exact hi
  | cons d ds ih =>
    unfold addDeps at h
    split at h
    · exact ih h hi
    · obtain ⟨si, f1, h0, h1⟩ := Fs.ok_bind.1 h
      obtain ⟨m, hl, rfl⟩ := Fs.dictionary_ok h0
      rw [Fs.bind_of_ok (addStreamerInfo_eq _ _)] at h1
      exact ih h1 (hi.addLookup he hl)

theorem findDeep_infosOk {env : Env} (he : env.Sound) {f f' : FileW} {u : Unit}
    (h : findDeepStreamer env f = (.ok u, f')) (hi : InfosOk f.sinfos f.ids) :
    InfosOk f'.sinfos f'.ids := by
  unfold findDeepStreamer at h
  rw [Fs.bind_of_ok (Fs.ok_get.2 ⟨rfl, rfl⟩)] at h
  obtain ⟨⟨ds, n⟩, _, h0, h1⟩ := Fs.ok_bind.1 h
  obtain ⟨hv, rfl⟩ := Fs.ok_lift.1 h0
  obtain ⟨_, _, h2, h3⟩ := Fs.ok_bind.1 h1
  obtain rfl := Fs.ok_modify.1 h2
  exact addDeps_infosOk he h3 (hi.mono (visitInfos_mono hv))

theorem step_infosOk {env : Env} (he : env.Sound) {path : Str} {op : Op} (ho : op.Describable)
    {r : Res Unit} {f f' : FileW} (hi : Inv path f) (h : op.run env f = (r, f'))
    (hr : r ≠ .error .panic) (hb : f'.Below2GB) (hk : InfosOk f.sinfos f.ids) :
    InfosOk f'.sinfos f'.ids := by
  have ann : ∀ {obj g}, Announced env obj f g → InfosOk g.sinfos g.ids := by
    intro obj g ha
    cases ha with
    | core _ => exact hk
    | found _ hl => exact hk.addLookup he hl
  cases op with
  | put name obj =>
    rcases r with (e | e) | u
    · rcases put_err hi.good h with rfl | ha
      · exact hk
      · exact ann ha
    · exact absurd rfl hr
    · obtain ⟨-, c, f1, m, w, -, ha, -, -, -, rfl⟩ := put_ok hi.good h
      have := ann ha
      exact this
  | basket b =>
    simp only [Op.run] at h
    generalize hw : b.writeToFile f = x at h
    obtain ⟨(e | e) | ⟨b', n, m⟩, f1⟩ := x
    · exact absurd hw (WBasket.writeToFile_err hi.good)
    · cases h; exact absurd rfl hr
    · cases h
      obtain ⟨-, w, -, -, ht, -⟩ := basket_inv hi hw hb
      rw [ht]; exact hk
  | register si =>
    simp only [Op.run] at h
    rw [registerInfo_eq] at h
    cases h
    exact hk.addClone ho

theorem runs_infosOk {env : Env} (he : env.Sound) {path : Str} {ops : List Op}
    (ho : ∀ op ∈ ops, op.Describable) {f g : FileW} (hi : Inv path f) (h : Runs env f ops g)
    (hk : InfosOk f.sinfos f.ids) : InfosOk g.sinfos g.ids := by
  induction h with
  | nil => exact hk
  | @snoc ops g op r g' h1 h2 h3 h4 ih =>
    refine step_infosOk he (ho op (by simp)) (runs_inv hi h1) h2 h3 h4 (ih fun o h => ho o ?_)
    exact List.mem_append_left _ h

/-! ### The list of records, written and read -/

theorem placedInfos_eq (env : Env) (n : Nat) (s : List StreamerInfo) :
    placedInfos env n s = (s.zipIdx n).map (fun p =>
      { cls := b! "TStreamerInfo", addr := env.addr p.2, marshal := p.1.marshal }) := by
  induction s generalizing n with
  | nil => rfl
  | cons a s ih => simp only [placedInfos, ih, List.zipIdx_cons, List.map_cons]

theorem InfosOk.storable {l : List StreamerInfo} {n : Nat} (h : InfosOk l n) {s : StreamerInfo}
    (hs : s ∈ l) : s.Storable := by
  have := h.ok s hs
  refine ⟨this.named, this.chksum, this.clsver, this.elems, this.few, ?_⟩
  exact (List.pairwise_flatMap.1 h.nodup).1 s hs

theorem takeInfos_map (l : List StreamerInfo) : takeInfos (l.map Obj.sinfo) = .ok l.reverse := by
  induction l with
  | nil => rfl
  | cons a l ih =>
    simp only [List.map_cons, takeInfos, ih, takeInfo, List.reverse_cons]
    rfl

theorem infos_emit {env : Env} (he : env.Sound) {s : List StreamerInfo} {n : Nat} (h : InfosOk s n)
    (ha : ∀ i, n ≤ env.addr i) (hlen : s.length < 2 ^ 31) (fuel : Nat) :
    ∃ S, EmitS false S (TList.marshal TObject.default none (placedInfos env 0 s)) _root_.id
      (do let l ← TList.unmarshal (readAny (fuel + 3)); pure (Obj.list l.1 l.2.1 l.2.2))
      (Obj.list TObject.default [] (s.map fun x => Obj.sinfo x.expected)) := by
  rw [placedInfos_eq]
  have hv : ((s.zipIdx).map fun p => Obj.sinfo p.1.expected) =
      s.map fun x => Obj.sinfo x.expected := by
    rw [show (fun p : StreamerInfo × Nat => Obj.sinfo p.1.expected) =
      (fun x => Obj.sinfo x.expected) ∘ Prod.fst from rfl, ← List.map_map, List.zipIdx_map_fst]
  have hmem : ∀ p ∈ s.zipIdx, p.1 ∈ s := fun p hp => by
    have := List.mem_map_of_mem (f := Prod.fst) hp
    rwa [List.zipIdx_map_fst] at this
  have hbel : ∀ p ∈ s.zipIdx, ∀ a ∈ p.1.ids, a < n := fun p hp a hpa =>
    h.below a (List.mem_flatMap.2 ⟨p.1, hmem p hp, hpa⟩)
  have key := EmitS.list (ne := false) (any := readAny (fuel + 3)) (l := s.zipIdx)
    (f := fun p : StreamerInfo × Nat =>
      { cls := b! "TStreamerInfo", addr := env.addr p.2, marshal := p.1.marshal })
    (S := fun p => env.addr p.2 :: p.1.ids) (val := fun p => Obj.sinfo p.1.expected)
    (obj := TObject.default) (name := none)
    (fun p hp => StreamerInfo.emitAny (h.storable (hmem p hp)) fuel _ fun hc => by
      have h1 := hbel p hp _ hc
      have := ha p.2
      omega) ?_ (by decide) (by decide) (by decide) (by simpa using hlen)
  · refine ⟨_, EmitS.thenPure key ?_⟩
    rw [hv]; rfl
  · have hnd := List.pairwise_flatMap.1 h.nodup
    have h1 : (s.zipIdx).Pairwise fun p q => ∀ x ∈ p.1.ids, ∀ y ∈ q.1.ids, x ≠ y := by
      have := hnd.2
      rw [← List.zipIdx_map_fst 0 s, List.pairwise_map] at this
      exact this
    have h2 : (s.zipIdx).Pairwise fun p q => p.2 ≠ q.2 := by
      have : (List.range' 0 s.length).Pairwise (· ≠ ·) := List.nodup_range'
      rw [← List.zipIdx_map_snd 0 s, List.pairwise_map] at this
      exact this
    refine List.Pairwise.imp_of_mem ?_ (h1.and h2)
    intro p q hp hq hpq a hpa hqa
    rcases List.mem_cons.1 hpa with rfl | hpa
    · rcases List.mem_cons.1 hqa with hqa | hqa
      · exact hpq.2 (he.addresses _ _ hqa)
      · have := hbel q hq _ hqa
        have := ha p.2
        omega
    · rcases List.mem_cons.1 hqa with rfl | hqa
      · have := hbel p hp _ hpa
        have := ha q.2
        omega
      · exact hpq.1 a hpa a hqa rfl

end Verif
