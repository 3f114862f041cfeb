import Verif.Lemmas.Adds
import Verif.Lemmas.DictionaryDeps
import Verif.Lemmas.TreeOpened
/-
The class records of a file with trees: there are few of them and they are short.
-/
namespace Verif

/-! ### Which records there are -/

/-- The record of the class of trees. -/
def tTreeRecord : StreamerInfo := match bundledDb (b! "TTree") 20 with
  | some s => s
  | none => {}

/-- The types of which vectors can be stored. -/
def vectorItems : List Ty := [.i8, .u8, .i16, .u16, .i32, .u32, .i64, .u64, .f32, .f64]

/-- The records of the classes of vectors. -/
def vectorRecords : List StreamerInfo := vectorItems.filterMap fun t => match makeVectorStreamer t with
  | .ok s => some s
  | .error _ => none

theorem makeVector_listed {t : Ty} {si : StreamerInfo} (h : makeVectorStreamer t = .ok si) : si ∈ vectorRecords := by
  have hc : t.stlContent ≠ none := by
    intro hn
    unfold makeVectorStreamer at h
    obtain ⟨c, -, h⟩ := Res.ok_bind.1 h
    rw [hn] at h
    cases h
  have ht : t ∈ vectorItems := by
    cases t <;> first | exact absurd rfl hc | decide
  unfold vectorRecords
  exact List.mem_filterMap.2 ⟨t, ht, by rw [h]⟩

/-- A copy of a record. -/
structure StreamerInfo.Like (r s : StreamerInfo) : Prop where
  named : s.named = r.named
  elems : ∃ n, s.elems = cloneElems n r.elems

theorem StreamerInfo.Like.clone {r : StreamerInfo} (n m : Nat) : r.Like { r.cloneAt n with id := m } := ⟨rfl, n, rfl⟩

theorem StreamerInfo.Like.cloneAt {r : StreamerInfo} (n : Nat) : r.Like (r.cloneAt n) := ⟨rfl, n, rfl⟩

theorem withId_cap (s : Streamer) (n : Nat) : (s.withId n).cap = s.cap := by cases s <;> rfl

theorem cloneElems_caps : ∀ (es : List Streamer) (n : Nat),
    ((cloneElems n es).map fun e => e.cap + 39).sum = (es.map fun e => e.cap + 39).sum
  | [], _ => rfl
  | e :: es, n => by
    simp only [cloneElems, List.map_cons, List.sum_cons, withId_cap, cloneElems_caps es (n + 1)]

theorem StreamerInfo.Like.cap {r s : StreamerInfo} (h : r.Like s) : s.cap = r.cap := by
  obtain ⟨n, he⟩ := h.elems
  unfold StreamerInfo.cap
  rw [h.named, he, cloneElems_caps]

theorem StreamerInfo.Like.name {r s : StreamerInfo} (h : r.Like s) : s.name = r.name := by
  unfold StreamerInfo.name; rw [h.named]

/-- The records of a file with trees, before it is closed. -/
def treeRecords : List StreamerInfo := tTreeRecord :: vectorRecords

/-- All the records a file with trees can have. -/
def allRecords : List StreamerInfo := vectorRecords ++ bundledList

/-! ### What the search for dependencies costs -/

/-- The most numbers handed out while visiting elements. -/
def visitNumbers (db : Str → Int → Option StreamerInfo) : Nat → List Streamer → Nat
  | 0, _ => 0
  | n + 1, es => (es.map fun e => match e.next with
      | none => 0
      | some name => match db name (-1) with
        | none => 0
        | some s => s.elems.length + 2 + visitNumbers db n s.elems).sum

/-- The most classes noted while visiting elements. -/
def visitDeps (db : Str → Int → Option StreamerInfo) : Nat → List Streamer → Nat
  | 0, _ => 0
  | n + 1, es => (es.map fun e => 1 + match e.next with
      | none => 0
      | some name => match db name (-1) with
        | none => 0
        | some s => visitDeps db n s.elems).sum

theorem visitNumbers_clone (db : Str → Int → Option StreamerInfo) (n : Nat) (es : List Streamer) (k : Nat) :
    visitNumbers db n (cloneElems k es) = visitNumbers db n es := by
  cases n with
  | zero => rfl
  | succ n =>
    induction es generalizing k with
    | nil => rfl
    | cons e es ih =>
      have := ih (k + 1)
      unfold visitNumbers at this ⊢
      simp only [cloneElems, List.map_cons, List.sum_cons, withId_next] at this ⊢
      rw [this]

theorem visitDeps_clone (db : Str → Int → Option StreamerInfo) (n : Nat) (es : List Streamer) (k : Nat) :
    visitDeps db n (cloneElems k es) = visitDeps db n es := by
  cases n with
  | zero => rfl
  | succ n =>
    induction es generalizing k with
    | nil => rfl
    | cons e es ih =>
      have := ih (k + 1)
      unfold visitDeps at this ⊢
      simp only [cloneElems, List.map_cons, List.sum_cons, withId_next] at this ⊢
      rw [this]

theorem visitElems_cost {env : Env} : ∀ (n : Nat) {es : List Streamer} {st st' : VisitState},
    visitElems env n es st = .ok st' →
    st'.ids ≤ st.ids + visitNumbers env.db n es ∧ st'.deps.length ≤ st.deps.length + visitDeps env.db n es
  | 0, es, st, st', h => by
    unfold visitElems at h
    split at h
    · cases h; exact ⟨Nat.le_add_right .., Nat.le_add_right ..⟩
    · cases h
  | n + 1, es, st, st', h => by
    unfold visitElems at h
    induction es generalizing st with
    | nil => cases h; exact ⟨Nat.le_add_right .., Nat.le_add_right ..⟩
    | cons e es ih =>
      rw [List.foldlM_cons] at h
      obtain ⟨s1, h1, h2⟩ := Res.ok_bind.1 h
      have h3 := ih s1 h2
      unfold visitNumbers visitDeps at h3 ⊢
      rw [List.map_cons, List.sum_cons, List.map_cons, List.sum_cons]
      generalize ((es.map _).sum : Nat) = A at h3 ⊢
      generalize ((es.map _).sum : Nat) = B at h3 ⊢
      suffices H : s1.ids ≤ st.ids + (match e.next with
          | none => 0
          | some name => match env.db name (-1) with
            | none => 0
            | some s => s.elems.length + 2 + visitNumbers env.db n s.elems) ∧
          s1.deps.length ≤ st.deps.length + (1 + match e.next with
            | none => 0
            | some name => match env.db name (-1) with
              | none => 0
              | some s => visitDeps env.db n s.elems) by
        obtain ⟨a, b⟩ := H
        omega
      unfold visitElem at h1
      split at h1
      · cases h1; exact ⟨Nat.le_add_right .., Nat.le_add_right ..⟩
      · obtain ⟨d, -, h1⟩ := Res.ok_bind.1 h1
        have hd : d.toList.length ≤ 1 := by cases d <;> simp
        dsimp only at h1
        split at h1
        · cases h1
          refine ⟨Nat.le_add_right .., ?_⟩
          show (st.deps ++ d.toList).length ≤ _
          rw [List.length_append]
          omega
        · split at h1
          · next hn =>
            cases h1
            rw [hn]
            refine ⟨Nat.le_add_right .., ?_⟩
            show (st.deps ++ d.toList).length ≤ _
            rw [List.length_append]
            omega
          · next name hn =>
            obtain ⟨⟨si, m⟩, h4, h5⟩ := Res.ok_bind.1 h1
            obtain ⟨s, hs, rfl, rfl⟩ := lookup_ok h4
            obtain ⟨a, b⟩ := visitElems_cost n h5
            rw [hn]
            dsimp only
            rw [hs]
            dsimp only at a b ⊢
            rw [show ({ s.cloneAt st.ids with id := st.ids + s.elems.length + 1 } : StreamerInfo).elems =
              cloneElems st.ids s.elems from rfl, visitNumbers_clone] at a
            rw [show ({ s.cloneAt st.ids with id := st.ids + s.elems.length + 1 } : StreamerInfo).elems =
              cloneElems st.ids s.elems from rfl, visitDeps_clone] at b
            rw [List.length_append] at b
            omega

theorem visitInfos_cost {env : Env} {N D : Nat} : ∀ {sis : List StreamerInfo} {ds0 ds : List (Str × Int)} {n m : Nat},
    (∀ s ∈ sis, visitNumbers env.db 10 s.elems ≤ N ∧ visitDeps env.db 10 s.elems ≤ D) →
    sis.foldlM (fun (acc : List (Str × Int) × Nat) si => do
      let st ← visitElems env 10 si.elems { deps := acc.1, ids := acc.2 }
      pure (st.deps, st.ids)) (ds0, n) = (.ok (ds, m) : Res _) →
    m ≤ n + N * sis.length ∧ ds.length ≤ ds0.length + D * sis.length
  | [], ds0, ds, n, m, _, h => by cases h; simp
  | s :: sis, ds0, ds, n, m, hc, h => by
    rw [List.foldlM_cons] at h
    obtain ⟨⟨d1, n1⟩, h1, h2⟩ := Res.ok_bind.1 h
    obtain ⟨st, h3, h4⟩ := Res.ok_bind.1 h1
    cases h4
    obtain ⟨a, b⟩ := visitElems_cost 10 h3
    obtain ⟨c, d⟩ := visitInfos_cost (fun s hs => hc s (List.mem_cons_of_mem _ hs)) h2
    have := hc s (List.mem_cons_self ..)
    dsimp only at a b
    rw [List.length_cons, Nat.mul_add, Nat.mul_add]
    omega

theorem treeRecords_cost : bundledDb (b! "TTree") 20 = some tTreeRecord ∧
    (treeRecords.all fun r => resolves bundledDb 10 r.elems && decide (visitNumbers bundledDb 10 r.elems ≤ 1000) &&
      decide (visitDeps bundledDb 10 r.elems ≤ 200)) = true := by
  decide +kernel

theorem allRecords_short : (allRecords.all fun r => decide (r.cap ≤ 6000) && decide (r.elems.length ≤ 40)) = true ∧
    allRecords.length = 95 := by
  decide +kernel

/-! ### The records of a file -/

/-- The records have different names and are copies of the given ones. -/
structure InfosOf (rs : List StreamerInfo) (sis : List StreamerInfo) : Prop where
  names : (sis.map StreamerInfo.name).Nodup
  like : ∀ s ∈ sis, ∃ r ∈ rs, r.Like s

theorem InfosOf.nil (rs : List StreamerInfo) : InfosOf rs [] := ⟨List.nodup_nil, fun s hs => by cases hs⟩

theorem InfosOf.add {rs sis : List StreamerInfo} {r s : StreamerInfo} (h : InfosOf rs sis) (hr : r ∈ rs)
    (hs : r.Like s) : InfosOf rs (addInfo sis s) := by
  unfold addInfo
  split
  · exact h
  · next hn =>
    simp only [List.any_eq_true, decide_eq_true_eq, not_exists, not_and] at hn
    refine ⟨?_, fun x hx => ?_⟩
    · rw [List.map_append, List.nodup_append]
      refine ⟨h.names, by simp, fun a ha b hb => ?_⟩
      obtain ⟨x, hx, rfl⟩ := List.mem_map.1 ha
      rw [List.mem_singleton.1 hb]
      exact hn x hx
    · rcases List.mem_append.1 hx with hx | hx
      · exact h.like x hx
      · rw [List.mem_singleton.1 hx]; exact ⟨r, hr, hs⟩

theorem InfosOf.mono {rs rs' sis : List StreamerInfo} (h : InfosOf rs sis) (hs : ∀ r ∈ rs, r ∈ rs') : InfosOf rs' sis :=
  ⟨h.names, fun s hm => let ⟨r, hr, hl⟩ := h.like s hm; ⟨r, hs r hr, hl⟩⟩

theorem nodup_length_le {α} [DecidableEq α] : ∀ {l m : List α}, l.Nodup → (∀ x ∈ l, x ∈ m) → l.length ≤ m.length
  | [], _, _, _ => Nat.zero_le _
  | a :: l, m, hn, hs => by
    rw [List.nodup_cons] at hn
    have ha := hs a (List.mem_cons_self ..)
    have := nodup_length_le (m := m.erase a) hn.2 fun x hx =>
      (List.mem_erase_of_ne (fun (h : x = a) => hn.1 (h ▸ hx))).2 (hs x (List.mem_cons_of_mem _ hx))
    rw [List.length_erase_of_mem ha] at this
    have := List.length_pos_of_mem ha
    rw [List.length_cons]
    omega

theorem InfosOf.few {rs sis : List StreamerInfo} (h : InfosOf rs sis) : sis.length ≤ rs.length := by
  have := nodup_length_le (m := rs.map StreamerInfo.name) h.names fun n hn => by
    obtain ⟨s, hs, rfl⟩ := List.mem_map.1 hn
    obtain ⟨r, hr, hl⟩ := h.like s hs
    exact List.mem_map.2 ⟨r, hr, hl.name.symm⟩
  simpa using this

theorem treeRecords_mem {r : StreamerInfo} (h : r ∈ treeRecords) : r = tTreeRecord ∨ r ∈ vectorRecords := List.mem_cons.1 h

theorem allRecords_vector {r : StreamerInfo} (h : r ∈ vectorRecords) : r ∈ allRecords := List.mem_append_left _ h

theorem allRecords_bundled {r : StreamerInfo} (h : r ∈ bundledList) : r ∈ allRecords := List.mem_append_right _ h

theorem treeRecords_vector {r : StreamerInfo} (h : r ∈ vectorRecords) : r ∈ treeRecords := List.mem_cons_of_mem _ h

theorem treeRecords_tree : tTreeRecord ∈ treeRecords := List.mem_cons_self ..

theorem vectorRecords_one {r : StreamerInfo} (h : r ∈ vectorRecords) : r.elems.length = 1 := by
  have : (vectorRecords.all fun r => decide (r.elems.length = 1)) = true := by decide
  simpa using List.all_eq_true.1 this r h

theorem treeRecords_eleven : treeRecords.length ≤ 11 := by decide

section
variable {addr : Nat → Nat}

attribute [local irreducible] bundledList bundledRecords bundledDb allRecords treeRecords tTreeRecord vectorRecords

theorem treeRecords_known {r : StreamerInfo} (h : r ∈ treeRecords) : r ∈ allRecords := by
  rcases treeRecords_mem h with rfl | h
  · exact allRecords_bundled (bundledDb_mem treeRecords_cost.1)
  · exact allRecords_vector h

theorem InfosOf.resolved {sis : List StreamerInfo} (h : InfosOf treeRecords sis) :
    ∀ s ∈ sis, s.Resolved (bundledEnv addr) ∧ visitNumbers bundledDb 10 s.elems ≤ 1000 ∧
      visitDeps bundledDb 10 s.elems ≤ 200 := by
  intro s hs
  obtain ⟨r, hr, hl⟩ := h.like s hs
  have := List.all_eq_true.1 treeRecords_cost.2 r hr
  simp only [Bool.and_eq_true, decide_eq_true_eq] at this
  obtain ⟨n, he⟩ := hl.elems
  unfold StreamerInfo.Resolved
  rw [he, visitNumbers_clone, visitDeps_clone, resolves_clone]
  exact ⟨this.1.1, this.1.2, this.2⟩

theorem InfosOf.short {sis : List StreamerInfo} (h : InfosOf allRecords sis) :
    sis.length ≤ 95 ∧ ∀ s ∈ sis, s.cap ≤ 6000 := by
  refine ⟨allRecords_short.2 ▸ h.few, fun s hs => ?_⟩
  obtain ⟨r, hr, hl⟩ := h.like s hs
  have := List.all_eq_true.1 allRecords_short.1 r hr
  simp only [Bool.and_eq_true, decide_eq_true_eq] at this
  rw [hl.cap]; exact this.1

theorem addDeps_infos : ∀ {ds : List (Str × Int)} {f f' : FileW} {u : Unit},
    addDeps (bundledEnv addr) ds f = (.ok u, f') → InfosOf allRecords f.sinfos →
    InfosOf allRecords f'.sinfos ∧ f'.ids ≤ f.ids + 42 * ds.length
  | [], f, f', _, h, hi => by
    obtain ⟨-, rfl⟩ := Fs.ok_pure.1 h
    exact ⟨hi, Nat.le_add_right ..⟩
  | d :: ds, f, f', _, h, hi => by
    unfold addDeps at h
    rw [List.length_cons, Nat.mul_add]
    split at h
    · obtain ⟨a, b⟩ := addDeps_infos h hi
      exact ⟨a, by omega⟩
    · obtain ⟨si, f1, h0, h1⟩ := Fs.ok_bind.1 h
      obtain ⟨m, hl, rfl⟩ := Fs.dictionary_ok h0
      rw [Fs.bind_of_ok (addStreamerInfo_eq _ _)] at h1
      obtain ⟨s, hs, rfl, rfl⟩ := lookup_ok hl
      have hm : s ∈ allRecords := allRecords_bundled (bundledDb_mem hs)
      obtain ⟨a, b⟩ := addDeps_infos h1 (hi.add hm (.clone _ _))
      have := List.all_eq_true.1 allRecords_short.1 s hm
      simp only [Bool.and_eq_true, decide_eq_true_eq] at this
      refine ⟨a, ?_⟩
      dsimp only at b
      omega

/-- The search for dependencies at the end. -/
theorem findDeep_infos {f : FileW} (h : InfosOf treeRecords f.sinfos) :
    ∃ s i, findDeepStreamer (bundledEnv addr) f = (.ok (), { f with sinfos := s, ids := i }) ∧
      InfosOf allRecords s ∧ i ≤ f.ids + 200000 := by
  obtain ⟨f', hf⟩ := findDeepStreamer_runs (env := bundledEnv addr) f fun s hs => (h.resolved s hs).1
  have hall := h.mono fun r => treeRecords_known
  have hfew := h.few
  have h11 := treeRecords_eleven
  have hsame := findDeepStreamer_same hf
  have hf0 := hf
  unfold findDeepStreamer at hf
  rw [Fs.bind_of_ok (Fs.ok_get.2 ⟨rfl, rfl⟩)] at hf
  obtain ⟨⟨ds, n⟩, _, h0, h1⟩ := Fs.ok_bind.1 hf
  obtain ⟨hv, rfl⟩ := Fs.ok_lift.1 h0
  obtain ⟨_, _, h2, h3⟩ := Fs.ok_bind.1 h1
  obtain rfl := Fs.ok_modify.1 h2
  obtain ⟨a, b⟩ := addDeps_infos h3 hall
  obtain ⟨c, d⟩ := visitInfos_cost (fun s hs => (h.resolved (addr := addr) s hs).2) hv
  refine ⟨f'.sinfos, f'.ids, ?_, a, ?_⟩
  · rw [hf0, ← hsame]
  · dsimp only at b c d
    simp only [List.length_nil] at d
    omega

/-- The list of records, at the end. -/
theorem infos_marshal (he : (bundledEnv addr).Sound) {s : List StreamerInfo} {i : Nat} (h : InfosOf allRecords s)
    (hk : InfosOk s i) (hi : ∀ j, i ≤ addr j) (off : Nat) : ∃ n w,
      TList.marshal TObject.default none (placedInfos (bundledEnv addr) 0 s) (WBuffer.new off) = .ok (n, w) ∧
      w.p.length ≤ 600000 := by
  obtain ⟨hlen, hcap⟩ := h.short
  obtain ⟨S, hem⟩ := infos_emit (env := bundledEnv addr) he hk hi (by omega) 0
  obtain ⟨bs, w, h1, -⟩ := hem.roundTripAt (off := off) (pre := []) (by intro h; cases h)
  refine ⟨_, w, h1, ?_⟩
  have := TList.adds TObject.default (placedInfos (bundledEnv addr) 0 s) 6000 (fun x hx => by
    rw [placedInfos_eq] at hx
    obtain ⟨p, hp, rfl⟩ := List.mem_map.1 hx
    refine ⟨(p.1.adds).le (hcap p.1 ?_), Nat.le_of_ble_eq_true rfl⟩
    have := List.mem_map_of_mem (f := Prod.fst) hp
    rwa [List.zipIdx_map_fst] at this) _ _ _ h1
  rw [placedInfos_eq, List.length_map, List.length_zipIdx] at this
  have e : (WBuffer.holding off []).p.length = 0 := rfl
  rw [e] at this
  omega

end

end Verif
