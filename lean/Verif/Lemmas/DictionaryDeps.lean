import Verif.Lemmas.Dictionary
import Verif.Lemmas.Infos
/-
Helper lemmas: the search for the classes a record depends on ends well when they are in the dictionary.
-/
namespace Verif

theorem withId_dep (s : Streamer) (n : Nat) : (s.withId n).dep = s.dep := by cases s <;> rfl

theorem withId_next (s : Streamer) (n : Nat) : (s.withId n).next = s.next := by cases s <;> rfl

theorem withId_ename (s : Streamer) (n : Nat) : (s.withId n).element.ename = s.element.ename := by
  cases s <;> rfl

theorem resolves_clone (db : Str → Int → Option StreamerInfo) (n : Nat) (es : List Streamer) (k : Nat) :
    resolves db n (cloneElems k es) = resolves db n es := by
  cases n with
  | zero => cases es <;> rfl
  | succ n =>
    induction es generalizing k with
    | nil => rfl
    | cons e es ih =>
      have := ih (k + 1)
      unfold resolves at this ⊢
      simp only [cloneElems, List.all_cons, withId_dep, withId_next, withId_ename] at this ⊢
      rw [this]

/-- All the classes in the list are known. -/
def DepsKnown (env : Env) (ds : List (Str × Int)) : Prop := ∀ d ∈ ds, depKnown env.db d = true

theorem DepsKnown.append {env : Env} {a b : List (Str × Int)} (ha : DepsKnown env a) (hb : DepsKnown env b) :
    DepsKnown env (a ++ b) := by
  intro d hd
  rcases List.mem_append.1 hd with h | h
  · exact ha d h
  · exact hb d h

theorem visitElems_runs (env : Env) : ∀ (n : Nat) (es : List Streamer) (st : VisitState),
    resolves env.db n es = true → DepsKnown env st.deps →
    ∃ st', visitElems env n es st = .ok st' ∧ DepsKnown env st'.deps
  | 0, es, st, h, hd => by
    cases es with
    | nil => exact ⟨st, rfl, hd⟩
    | cons => cases h
  | n + 1, es, st, h, hd => by
    unfold visitElems
    induction es generalizing st with
    | nil => exact ⟨st, rfl, hd⟩
    | cons e es ih =>
      unfold resolves at h
      simp only [List.all_cons, Bool.and_eq_true] at h
      obtain ⟨⟨h1, h2⟩, h3⟩ := h
      have h3 : resolves env.db (n + 1) es = true := by
        unfold resolves
        exact h3
      rw [List.foldlM_cons]
      have key : ∃ st', visitElem env (visitElems env n) e st = .ok st' ∧ DepsKnown env st'.deps := by
        unfold visitElem
        split
        · exact ⟨st, rfl, hd⟩
        · cases hdep : e.dep with
          | error x => rw [hdep] at h1; cases h1
          | ok d =>
            rw [hdep] at h1
            have hd1 : DepsKnown env (st.deps ++ d.toList) :=
              hd.append fun x hx => List.all_eq_true.1 h1 x hx
            rw [Res.bind_ok rfl]
            dsimp only
            split
            · exact ⟨_, rfl, hd1⟩
            · next hv =>
              rw [decide_eq_false hv, Bool.false_or] at h2
              cases hn : e.next with
              | none => exact ⟨_, rfl, hd1⟩
              | some name =>
                rw [hn] at h2
                dsimp only at h2 ⊢
                cases hs : env.db name (-1) with
                | none => rw [hs] at h2; cases h2
                | some s =>
                  rw [hs] at h2
                  rw [Res.bind_ok (show env.lookup name (-1) st.ids = .ok _ by unfold Env.lookup; rw [hs])]
                  dsimp only
                  exact visitElems_runs env n _ _ (by
                    show resolves env.db n (cloneElems _ s.elems) = true
                    rw [resolves_clone]; exact h2) hd1
      obtain ⟨st1, hk, hd1⟩ := key
      rw [Res.bind_ok hk]
      exact ih st1 h3 hd1

/-- A class record all of whose dependencies are known. -/
def StreamerInfo.Resolved (env : Env) (s : StreamerInfo) : Prop := resolves env.db 10 s.elems = true

theorem StreamerInfo.Resolved.clone {env : Env} (s : StreamerInfo) (n m : Nat) (h : s.Resolved env) :
    StreamerInfo.Resolved env { s.cloneAt n with id := m } := by
  unfold StreamerInfo.Resolved
  show resolves env.db 10 (cloneElems n s.elems) = true
  rw [resolves_clone]; exact h

theorem visitInfos_runs {env : Env} {sis : List StreamerInfo} (n : Nat) (h : ∀ s ∈ sis, s.Resolved env) :
    ∃ ds m, visitInfos env sis n = .ok (ds, m) ∧ DepsKnown env ds := by
  unfold visitInfos
  suffices H : ∀ acc : List (Str × Int) × Nat, DepsKnown env acc.1 → ∃ r : List (Str × Int) × Nat,
      sis.foldlM (fun (acc : List (Str × Int) × Nat) si => do
        let st ← visitElems env 10 si.elems { deps := acc.1, ids := acc.2 }
        pure (st.deps, st.ids)) acc = (.ok r : Res _) ∧ DepsKnown env r.1 by
    obtain ⟨⟨ds, m⟩, h1, h2⟩ := H ([], n) (fun d hd => by cases hd)
    exact ⟨ds, m, h1, h2⟩
  induction sis with
  | nil => exact fun acc hd => ⟨acc, rfl, hd⟩
  | cons s sis ih =>
    intro acc hd
    obtain ⟨st, h1, h2⟩ := visitElems_runs env 10 s.elems { deps := acc.1, ids := acc.2 }
      (h s (List.mem_cons_self ..)) hd
    rw [List.foldlM_cons, Res.bind_ok (a := (st.deps, st.ids)) (by rw [Res.bind_ok h1]; rfl)]
    exact ih (fun s hs => h s (List.mem_cons_of_mem _ hs)) (st.deps, st.ids) h2

theorem addDeps_runs {env : Env} : ∀ {ds : List (Str × Int)} (f : FileW), DepsKnown env ds →
    ∃ f', addDeps env ds f = (.ok (), f')
  | [], f, _ => ⟨f, rfl⟩
  | d :: ds, f, h => by
    have h1 := h d (List.mem_cons_self ..)
    have h2 : DepsKnown env ds := fun x hx => h x (List.mem_cons_of_mem _ hx)
    unfold addDeps
    split
    · exact addDeps_runs f h2
    · next hn =>
      unfold depKnown at h1
      simp only [Bool.or_eq_true, List.contains_iff_mem] at h1
      have h1 := h1.resolve_left hn
      cases hs : env.db d.1 d.2 with
      | none => rw [hs] at h1; cases h1
      | some s =>
        obtain ⟨r, f1, hd⟩ : ∃ r f1, Fs.dictionary env d.1 d.2 f = (.ok r, f1) := by
          unfold Fs.dictionary
          rw [Fs.bind_of_ok (Fs.ok_get.2 ⟨rfl, rfl⟩)]
          unfold Env.lookup
          rw [hs]
          exact ⟨_, _, rfl⟩
        rw [Fs.bind_of_ok hd, Fs.bind_of_ok (addStreamerInfo_eq _ _)]
        exact addDeps_runs _ h2

theorem findDeepStreamer_runs {env : Env} (f : FileW) (h : ∀ s ∈ f.sinfos, s.Resolved env) :
    ∃ f', findDeepStreamer env f = (.ok (), f') := by
  unfold findDeepStreamer
  obtain ⟨ds, m, h1, h2⟩ := visitInfos_runs f.ids h
  rw [Fs.bind_of_ok (Fs.ok_get.2 ⟨rfl, rfl⟩), Fs.bind_of_ok (Fs.ok_lift.2 ⟨h1, rfl⟩)]
  dsimp only
  rw [Fs.bind_of_ok (Fs.ok_modify.2 rfl : Fs.modify _ _ = (.ok (), _))]
  exact addDeps_runs _ h2

end Verif
