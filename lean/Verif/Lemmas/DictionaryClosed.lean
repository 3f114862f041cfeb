import Verif.Lemmas.DictionaryDeps
import Verif.Lemmas.DictionaryFind
/-
Helper lemmas: after the search for dependencies the classes all the records refer to are there.
-/
namespace Verif

/-- The class the element refers to is among those given. -/
def Listed (ds : List (Str × Int)) (e : Streamer) : Prop := ∀ d, e.dep = .ok (some d) → d ∈ ds

/-- An element whose class is visited, unless the library leaves it out. -/
def Streamer.Follows (e : Streamer) : Prop :=
  ∀ d, e.dep = .ok (some d) → d.1 ∈ coreTypes ∨ d.1 ∈ cxxBuiltins ∨
    (¬ (e.element.ename = b! "TVirtualIndex" ∨ e.element.ename = b! "TVirtualIndex*") ∧ e.next = some d.1)

/-- The record of the class has all its own classes among those given. -/
def Explained (env : Env) (ds : List (Str × Int)) (d : Str × Int) : Prop :=
  d.1 ∈ coreTypes ∨ d.1 ∈ cxxBuiltins ∨ ∃ s, env.db d.1 (-1) = some s ∧ ∀ e ∈ s.elems, Listed ds e

theorem Listed.mono {ds ds' : List (Str × Int)} (hs : ∀ d ∈ ds, d ∈ ds') {e : Streamer} (h : Listed ds e) :
    Listed ds' e := fun d hd => hs d (h d hd)

theorem Explained.mono {env : Env} {ds ds' : List (Str × Int)} (hs : ∀ d ∈ ds, d ∈ ds') {d : Str × Int}
    (h : Explained env ds d) : Explained env ds' d := by
  rcases h with h | h | ⟨s, h1, h2⟩
  · exact .inl h
  · exact .inr (.inl h)
  · exact .inr (.inr ⟨s, h1, fun e he => (h2 e he).mono hs⟩)

theorem Streamer.Follows.withId {e : Streamer} (h : e.Follows) (n : Nat) : (e.withId n).Follows := by
  intro d hd
  rw [withId_dep] at hd
  rw [withId_ename, withId_next]
  exact h d hd

theorem Listed.withId {ds : List (Str × Int)} {e : Streamer} {n : Nat} :
    Listed ds (e.withId n) ↔ Listed ds e := by
  unfold Listed
  rw [withId_dep]

/-- The numbers of the elements to be visited: distinct, handed out, none visited. -/
structure FreshIds (es : List Streamer) (st : VisitState) : Prop where
  nodup : (es.map fun e => e.element.id).Nodup
  below : ∀ e ∈ es, e.element.id < st.ids
  fresh : ∀ e ∈ es, e.element.id ∉ st.visited
  seen : ∀ i ∈ st.visited, i < st.ids

theorem listed_clone {ds : List (Str × Int)} : ∀ {es : List Streamer} {n : Nat},
    (∀ e ∈ cloneElems n es, Listed ds e) → ∀ e ∈ es, Listed ds e
  | [], _, _, e, he => by cases he
  | x :: es, n, h, e, he => by
    rcases List.mem_cons.1 he with rfl | he
    · exact Listed.withId.1 (h _ (List.mem_cons_self ..))
    · exact listed_clone (n := n + 1) (fun e he => h e (List.mem_cons_of_mem _ he)) e he

/-- What visiting elements gives. -/
structure Visits (env : Env) (es : List Streamer) (st st' : VisitState) : Prop where
  ids : st.ids ≤ st'.ids
  kept : ∀ d ∈ st.deps, d ∈ st'.deps
  seen : ∀ i ∈ st'.visited, i < st'.ids ∧ (i ∈ st.visited ∨ (∃ e ∈ es, e.element.id = i) ∨ st.ids ≤ i)
  listed : ∀ e ∈ es, Listed st'.deps e
  explained : ∀ d ∈ st'.deps, d ∈ st.deps ∨ Explained env st'.deps d

theorem visitElems_visits {env : Env} (hg : ∀ n v s, env.db n v = some s → ∀ e ∈ s.elems, e.Follows) :
    ∀ (n : Nat) (es : List Streamer) (st st' : VisitState), (∀ e ∈ es, e.Follows) → FreshIds es st →
    visitElems env n es st = .ok st' → Visits env es st st'
  | 0, es, st, st', _, hf, h => by
    unfold visitElems at h
    split at h
    · next he =>
      cases h
      subst he
      exact ⟨Nat.le_refl _, fun d h => h, fun i hi => ⟨hf.seen i hi, .inl hi⟩, (fun e h => by cases h),
        fun d h => .inl h⟩
    · cases h
  | n + 1, es, st, st', hes, hf, h => by
    unfold visitElems at h
    induction es generalizing st with
    | nil =>
      cases h
      exact ⟨Nat.le_refl _, fun d h => h, fun i hi => ⟨hf.seen i hi, .inl hi⟩, (fun e h => by cases h),
        fun d h => .inl h⟩
    | cons e es ih =>
      rw [List.foldlM_cons] at h
      obtain ⟨st1, h1, h2⟩ := Res.ok_bind.1 h
      have he := hes e (List.mem_cons_self ..)
      have hid := hf.below e (List.mem_cons_self ..)
      have hnd := hf.nodup
      rw [List.map_cons, List.nodup_cons] at hnd
      have key : Visits env [e] st st1 := by
        unfold visitElem at h1
        rw [if_neg (hf.fresh e (List.mem_cons_self ..))] at h1
        obtain ⟨d, hd, h1⟩ := Res.ok_bind.1 h1
        dsimp only at h1
        -- the state after the element itself
        have hl : ∀ ds : List (Str × Int), (∀ x ∈ st.deps ++ d.toList, x ∈ ds) → Listed ds e := by
          intro ds hs d' hd'
          rw [hd] at hd'
          injection hd' with hd'
          subst hd'
          exact hs _ (List.mem_append_right _ (by simp))
        have base : (∀ x ∈ d.toList, x.1 ∈ coreTypes ∨ x.1 ∈ cxxBuiltins) →
            Visits env [e] st { st with visited := st.visited ++ [e.element.id], deps := st.deps ++ d.toList } := by
          intro hc
          refine ⟨Nat.le_refl _, fun x hx => List.mem_append_left _ hx, fun i hi => ?_, fun x hx => ?_, fun x hx => ?_⟩
          · rcases List.mem_append.1 hi with hi | hi
            · exact ⟨hf.seen i hi, .inl hi⟩
            · rw [List.mem_singleton.1 hi]
              exact ⟨hid, .inr (.inl ⟨e, List.mem_cons_self .., rfl⟩)⟩
          · rw [List.mem_singleton.1 hx]
            exact hl _ fun x hx => hx
          · rcases List.mem_append.1 hx with hx | hx
            · exact .inl hx
            · rcases hc x hx with hc | hc
              · exact .inr (.inl hc)
              · exact .inr (.inr (.inl hc))
        split at h1
        · next hv =>
          cases h1
          refine base fun x hx => ?_
          rw [Option.mem_toList] at hx
          rcases he x (by rw [hd, hx]) with hc | hc | ⟨hc, -⟩
          · exact .inl hc
          · exact .inr hc
          · exact absurd hv hc
        · next hv =>
          cases hn : e.next with
          | none =>
            rw [hn] at h1
            cases h1
            refine base fun x hx => ?_
            rw [Option.mem_toList] at hx
            rcases he x (by rw [hd, hx]) with hc | hc | ⟨-, hc⟩
            · exact .inl hc
            · exact .inr hc
            · rw [hn] at hc; cases hc
          | some name =>
            rw [hn] at h1
            dsimp only at h1
            obtain ⟨⟨si, m⟩, h3, h4⟩ := Res.ok_bind.1 h1
            obtain ⟨s, hs, rfl, rfl⟩ := lookup_ok h3
            dsimp only at h4
            have hsub := visitElems_visits hg n (cloneElems st.ids s.elems) _ st1 ?_ ?_ h4
            · refine ⟨?_, fun x hx => hsub.kept x (List.mem_append_left _ hx), fun i hi => ?_, fun x hx => ?_,
                fun x hx => ?_⟩
              · have := hsub.ids
                dsimp only at this
                omega
              · obtain ⟨a1, a2⟩ := hsub.seen i hi
                refine ⟨a1, ?_⟩
                rcases a2 with a2 | ⟨x, hx, rfl⟩ | a2
                · rcases List.mem_append.1 a2 with a2 | a2
                  · exact .inl a2
                  · rw [List.mem_singleton.1 a2]
                    exact .inr (.inl ⟨e, List.mem_cons_self .., rfl⟩)
                · refine .inr (.inr ?_)
                  have : x.element.id ∈ (cloneElems st.ids s.elems).map (fun e => e.element.id) :=
                    List.mem_map.2 ⟨x, hx, rfl⟩
                  rw [cloneElems_ids, List.mem_range'_1] at this
                  exact this.1
                · dsimp only at a2
                  exact .inr (.inr (by omega))
              · rw [List.mem_singleton.1 hx]
                exact hl _ hsub.kept
              · rcases hsub.explained x hx with hx | hx
                · rcases List.mem_append.1 hx with hx | hx
                  · exact .inl hx
                  · rw [Option.mem_toList] at hx
                    refine .inr ?_
                    rcases he x (by rw [hd, hx]) with hc | hc | ⟨-, hc⟩
                    · exact .inl hc
                    · exact .inr (.inl hc)
                    · rw [hn] at hc
                      injection hc with hc
                      subst hc
                      exact .inr (.inr ⟨s, hs, listed_clone hsub.listed⟩)
                · exact .inr hx
            · intro x hx
              obtain ⟨y, hy, k, rfl⟩ := mem_cloneElems hx
              exact (hg _ _ _ hs y hy).withId k
            · refine ⟨?_, fun x hx => ?_, fun x hx => ?_, fun i hi => ?_⟩
              · rw [cloneElems_ids]
                exact List.nodup_range'
              all_goals dsimp only
              · have : x.element.id ∈ (cloneElems st.ids s.elems).map (fun e => e.element.id) :=
                  List.mem_map.2 ⟨x, hx, rfl⟩
                rw [cloneElems_ids, List.mem_range'_1] at this
                omega
              · have : x.element.id ∈ (cloneElems st.ids s.elems).map (fun e => e.element.id) :=
                  List.mem_map.2 ⟨x, hx, rfl⟩
                rw [cloneElems_ids, List.mem_range'_1] at this
                intro hm
                rcases List.mem_append.1 hm with hm | hm
                · have := hf.seen _ hm
                  omega
                · have := List.mem_singleton.1 hm
                  omega
              · rcases List.mem_append.1 hi with hi | hi
                · have := hf.seen _ hi
                  omega
                · have := List.mem_singleton.1 hi
                  omega
      have hrest := ih st1 (fun x hx => hes x (List.mem_cons_of_mem _ hx)) ⟨hnd.2, fun x hx => ?_, fun x hx hm => ?_,
        fun i hi => (key.seen i hi).1⟩ h2
      · refine ⟨Nat.le_trans key.ids hrest.ids, fun x hx => hrest.kept x (key.kept x hx), fun i hi => ?_,
          fun x hx => ?_, fun x hx => ?_⟩
        · obtain ⟨a1, a2⟩ := hrest.seen i hi
          refine ⟨a1, ?_⟩
          rcases a2 with a2 | ⟨x, hx, rfl⟩ | a2
          · rcases (key.seen i a2).2 with a3 | ⟨x, hx, rfl⟩ | a3
            · exact .inl a3
            · exact .inr (.inl ⟨x, by rw [List.mem_singleton.1 hx]; exact List.mem_cons_self .., rfl⟩)
            · exact .inr (.inr a3)
          · exact .inr (.inl ⟨x, List.mem_cons_of_mem _ hx, rfl⟩)
          · exact .inr (.inr (Nat.le_trans key.ids a2))
        · rcases List.mem_cons.1 hx with rfl | hx
          · exact (key.listed _ (List.mem_cons_self ..)).mono hrest.kept
          · exact hrest.listed x hx
        · rcases hrest.explained x hx with hx | hx
          · rcases key.explained x hx with hx | hx
            · exact .inl hx
            · exact .inr (hx.mono hrest.kept)
          · exact .inr hx
      · exact Nat.lt_of_lt_of_le (hf.below x (List.mem_cons_of_mem _ hx)) key.ids
      · rcases (key.seen _ hm).2 with a | ⟨y, hy, a⟩ | a
        · exact hf.fresh x (List.mem_cons_of_mem _ hx) a
        · rw [List.mem_singleton.1 hy] at a
          exact hnd.1 (List.mem_map.2 ⟨x, hx, a.symm⟩)
        · have := hf.below x (List.mem_cons_of_mem _ hx)
          omega

theorem visitInfos_visits {env : Env} (hg : ∀ n v s, env.db n v = some s → ∀ e ∈ s.elems, e.Follows)
    {sis : List StreamerInfo} {n m : Nat} {ds : List (Str × Int)} (hs : ∀ s ∈ sis, ∀ e ∈ s.elems, e.Follows)
    (hi : ∀ s ∈ sis, s.ids.Nodup ∧ ∀ a ∈ s.ids, a < n)
    (h : visitInfos env sis n = .ok (ds, m)) :
    (∀ s ∈ sis, ∀ e ∈ s.elems, Listed ds e) ∧ ∀ d ∈ ds, Explained env ds d := by
  unfold visitInfos at h
  suffices H : ∀ (sis : List StreamerInfo) (ds0 : List (Str × Int)) (n : Nat),
      (∀ s ∈ sis, ∀ e ∈ s.elems, e.Follows) → (∀ s ∈ sis, s.ids.Nodup ∧ ∀ a ∈ s.ids, a < n) →
      sis.foldlM (fun (acc : List (Str × Int) × Nat) si => do
        let st ← visitElems env 10 si.elems { deps := acc.1, ids := acc.2 }
        pure (st.deps, st.ids)) (ds0, n) = (.ok (ds, m) : Res _) →
      (∀ d ∈ ds0, d ∈ ds) ∧ (∀ s ∈ sis, ∀ e ∈ s.elems, Listed ds e) ∧
        ∀ d ∈ ds, d ∈ ds0 ∨ Explained env ds d by
    obtain ⟨-, h1, h2⟩ := H sis [] n hs hi h
    exact ⟨h1, fun d hd => (h2 d hd).resolve_left (fun h => by cases h)⟩
  clear h hs hi
  intro sis
  induction sis with
  | nil =>
    intro ds0 n _ _ h
    cases h
    exact ⟨fun d h => h, (fun s h => by cases h), fun d h => .inl h⟩
  | cons s sis ih =>
    intro ds0 n hs hi h
    rw [List.foldlM_cons] at h
    obtain ⟨⟨d1, n1⟩, h1, h2⟩ := Res.ok_bind.1 h
    obtain ⟨st, h3, h4⟩ := Res.ok_bind.1 h1
    cases h4
    obtain ⟨i1, i2⟩ := hi s (List.mem_cons_self ..)
    have i1 : (s.id :: s.elems.map fun e => e.element.id).Nodup := i1
    have i2 : ∀ a ∈ s.id :: s.elems.map fun e => e.element.id, a < n := i2
    have hv := visitElems_visits hg 10 s.elems _ _ (hs s (List.mem_cons_self ..))
      ⟨(List.nodup_cons.1 i1).2, fun e he => i2 _ (List.mem_cons_of_mem _ (List.mem_map.2 ⟨e, he, rfl⟩)),
        (fun e _ h => by cases h), (fun i h => by cases h)⟩ h3
    obtain ⟨r1, r2, r3⟩ := ih st.deps st.ids (fun s h => hs s (List.mem_cons_of_mem _ h))
      (fun s h => ⟨(hi s (List.mem_cons_of_mem _ h)).1, fun a ha => Nat.lt_of_lt_of_le
        ((hi s (List.mem_cons_of_mem _ h)).2 a ha) hv.ids⟩) h2
    refine ⟨fun d hd => r1 d (hv.kept d hd), fun x hx => ?_, fun d hd => ?_⟩
    · rcases List.mem_cons.1 hx with rfl | hx
      · exact fun e he => (hv.listed e he).mono r1
      · exact r2 x hx
    · rcases r3 d hd with hd | hd
      · rcases hv.explained d hd with hd | hd
        · exact .inl hd
        · exact .inr (hd.mono r1)
      · exact .inr hd

/-- The class of the element is one the library leaves out, or has a record. -/
def InRecords (sis : List StreamerInfo) (n : Str) : Prop :=
  n ∈ coreTypes ∨ n ∈ cxxBuiltins ∨ ∃ s ∈ sis, s.name = n

theorem addInfo_name {l : List StreamerInfo} {s : StreamerInfo} {n : Str}
    (h : (∃ x ∈ l, x.name = n) ∨ s.name = n) : ∃ x ∈ addInfo l s, x.name = n := by
  unfold addInfo
  split
  · next ha =>
    rcases h with h | rfl
    · exact h
    · obtain ⟨x, hx, he⟩ := List.any_eq_true.1 ha
      exact ⟨x, hx, of_decide_eq_true he⟩
  · rcases h with ⟨x, hx, he⟩ | rfl
    · exact ⟨x, List.mem_append_left _ hx, he⟩
    · exact ⟨s, by simp, rfl⟩

theorem addDeps_records {env : Env} (hn : ∀ n v s, env.db n v = some s → s.name = n)
    {P : StreamerInfo → Prop} : ∀ {ds : List (Str × Int)} {f f' : FileW} {u : Unit},
    addDeps env ds f = (.ok u, f') →
    (∀ x ∈ f.sinfos, P x) →
    (∀ d ∈ ds, d.1 ∉ coreTypes → d.1 ∉ cxxBuiltins → ∀ s n m, env.db d.1 d.2 = some s →
      P { s.cloneAt n with id := m }) →
    (∀ x ∈ f'.sinfos, P x) ∧ (∀ x ∈ f.sinfos, ∃ y ∈ f'.sinfos, y.name = x.name) ∧
      ∀ d ∈ ds, InRecords f'.sinfos d.1
  | [], f, f', u, h, hp, _ => by
    obtain ⟨-, rfl⟩ := Fs.ok_pure.1 h
    exact ⟨hp, fun x hx => ⟨x, hx, rfl⟩, (fun d h => by cases h)⟩
  | d :: ds, f, f', u, h, hp, hd => by
    have hd' := fun d h => hd d (List.mem_cons_of_mem _ h)
    unfold addDeps at h
    split at h
    · next hc =>
      obtain ⟨r1, r2, r3⟩ := addDeps_records hn h hp hd'
      refine ⟨r1, r2, fun x hx => ?_⟩
      rcases List.mem_cons.1 hx with rfl | hx
      · rcases hc with hc | hc
        · exact .inl hc
        · exact .inr (.inl hc)
      · exact r3 x hx
    · next hc =>
      obtain ⟨si, f1, h0, h1⟩ := Fs.ok_bind.1 h
      obtain ⟨m, hl, rfl⟩ := Fs.dictionary_ok h0
      rw [Fs.bind_of_ok (addStreamerInfo_eq _ _)] at h1
      obtain ⟨s, hs, rfl, -⟩ := lookup_ok hl
      have hP := hd d (List.mem_cons_self ..) (fun h => hc (.inl h)) (fun h => hc (.inr h)) s f.ids
        (f.ids + s.elems.length + 1) hs
      have hname : StreamerInfo.name { s.cloneAt f.ids with id := f.ids + s.elems.length + 1 } = d.1 := by
        show s.name = d.1
        exact hn _ _ _ hs
      obtain ⟨r1, r2, r3⟩ := addDeps_records hn h1 (by
        dsimp only
        intro x hx
        unfold addInfo at hx
        split at hx
        · exact hp x hx
        · rcases List.mem_append.1 hx with hx | hx
          · exact hp x hx
          · rw [List.mem_singleton.1 hx]; exact hP) hd'
      refine ⟨r1, fun x hx => ?_, fun x hx => ?_⟩
      · obtain ⟨y, hy, he⟩ := addInfo_name (l := f.sinfos) (s := { s.cloneAt f.ids with id := f.ids + s.elems.length + 1 })
          (.inl ⟨x, hx, rfl⟩)
        obtain ⟨z, hz, he'⟩ := r2 y hy
        exact ⟨z, hz, by rw [he', he]⟩
      · rcases List.mem_cons.1 hx with rfl | hx
        · obtain ⟨y, hy, he⟩ := addInfo_name (l := f.sinfos) (s := { s.cloneAt f.ids with id := f.ids + s.elems.length + 1 })
            (.inr hname)
          obtain ⟨z, hz, he'⟩ := r2 y hy
          exact .inr (.inr ⟨z, hz, by rw [he', he]⟩)
        · exact r3 x hx

/-- After the search every class an element refers to is left out by the library or described. -/
theorem findDeep_closed {env : Env} (hg : ∀ n v s, env.db n v = some s → ∀ e ∈ s.elems, e.Follows)
    (hn : ∀ n v s, env.db n v = some s → s.name = n)
    (hv : ∀ n v s s', env.db n v = some s → env.db n (-1) = some s' → s = s')
    {f f' : FileW} {u : Unit} (h : findDeepStreamer env f = (.ok u, f'))
    (hs : ∀ s ∈ f.sinfos, ∀ e ∈ s.elems, e.Follows) (hi : InfosOk f.sinfos f.ids) :
    (∀ s ∈ f'.sinfos, ∀ e ∈ s.elems, ∀ d, e.dep = .ok (some d) → InRecords f'.sinfos d.1) ∧
      ∀ s ∈ f.sinfos, ∃ s' ∈ f'.sinfos, s'.name = s.name := by
  unfold findDeepStreamer at h
  rw [Fs.bind_of_ok (Fs.ok_get.2 ⟨rfl, rfl⟩)] at h
  obtain ⟨⟨ds, n⟩, _, h0, h1⟩ := Fs.ok_bind.1 h
  obtain ⟨hvi, rfl⟩ := Fs.ok_lift.1 h0
  obtain ⟨_, _, h2, h3⟩ := Fs.ok_bind.1 h1
  obtain rfl := Fs.ok_modify.1 h2
  have hids : ∀ s ∈ f.sinfos, s.ids.Nodup ∧ ∀ a ∈ s.ids, a < f.ids := fun s hm =>
    ⟨(List.pairwise_flatMap.1 hi.nodup).1 s hm, fun a ha => hi.below a (List.mem_flatMap.2 ⟨s, hm, ha⟩)⟩
  obtain ⟨a1, a2⟩ := visitInfos_visits hg hs hids hvi
  obtain ⟨r1, r2, r3⟩ := addDeps_records (P := fun s => ∀ e ∈ s.elems, Listed ds e) hn h3 a1 (by
    intro d hd c1 c2 s n m hdb
    rcases a2 d hd with c | c | ⟨s', h1, h2⟩
    · exact absurd c c1
    · exact absurd c c2
    · rw [hv _ _ _ _ hdb h1]
      intro e he
      obtain ⟨y, hy, k, rfl⟩ := mem_cloneElems (show e ∈ cloneElems n s'.elems from he)
      exact Listed.withId.2 (h2 y hy))
  exact ⟨fun s hs e he d hd => r3 d (r1 s hs e he d hd), r2⟩

end Verif
