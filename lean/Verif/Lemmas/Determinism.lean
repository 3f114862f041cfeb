import Verif.Lemmas.Renaming
import Verif.Lemmas.Session
import Verif.Lemmas.Open
import Verif.Spec.Total
/-
What is done with a file does not depend on the numbers that class records got.
-/
namespace Verif

/-- The file with other class records and another counter. -/
def FileW.with (f : FileW) (s : List StreamerInfo) (i : Nat) : FileW := { f with sinfos := s, ids := i }

/-- Neither looks at the class records and the counter nor changes them. -/
def Blind {α} (m : Fs α) : Prop := ∀ f s i, m (f.with s i) = ((m f).1, (m f).2.with s i)

namespace Blind

theorem bind {α β} {m : Fs α} {k : α → Fs β} (h : Blind m) (hk : ∀ a, Blind (k a)) : Blind (m >>= k) := by
  intro f s i
  show (match m (f.with s i) with
    | (.ok a, f') => k a f'
    | (.error e, f') => (.error e, f')) = _
  rw [h f s i]
  show _ = ((match m f with
    | (.ok a, f') => k a f'
    | (.error e, f') => (.error e, f')).1, (match m f with
    | (.ok a, f') => k a f'
    | (.error e, f') => (.error e, f')).2.with s i)
  rcases m f with ⟨_ | a, f'⟩
  · rfl
  · exact hk a f' s i

theorem pure {α} (a : α) : Blind (Pure.pure a : Fs α) := fun _ _ _ => rfl
theorem lift {α} (r : Res α) : Blind (Fs.lift r) := fun _ _ _ => rfl
theorem panic {α} : Blind (Fs.panic : Fs α) := fun _ _ _ => rfl
theorem fail {α} (e : Err) : Blind (Fs.fail e : Fs α) := fun _ _ _ => rfl
theorem ite {α} {c : Prop} [Decidable c] {m n : Fs α} (h1 : Blind m) (h2 : Blind n) : Blind (if c then m else n) := by
  split
  · exact h1
  · exact h2
theorem getBind {β} {k : FileW → Fs β} (h : ∀ f s i, k (f.with s i) = k f) (hk : ∀ f, Blind (k f)) :
    Blind (Fs.get >>= k) := by
  intro f s i
  show k (f.with s i) (f.with s i) = ((k f f).1, (k f f).2.with s i)
  rw [h]
  exact hk f f s i
theorem modify {g : FileW → FileW} (h : ∀ f s i, g (f.with s i) = (g f).with s i) : Blind (Fs.modify g) := by
  intro f s i
  show (_, g (f.with s i)) = _
  rw [h]
  rfl
theorem orPanic {α} (o : Option α) : Blind (Fs.orPanic o) := by
  cases o
  · exact panic
  · exact pure _
theorem i32 (v : Int) : Blind (Fs.i32 v) := ite (pure _) panic
theorem marshal (off : Int) (m : Wr Nat) : Blind (Fs.marshal off m) := by
  intro f s i
  unfold Fs.marshal
  split <;> rfl
theorem writeAt (data : List Byte) (pos : Int) : Blind (Fs.writeAt data pos) := by
  intro f s i
  unfold Fs.writeAt
  split <;> rfl

theorem setEnd (pos : Int) : Blind (Fs.setEnd pos) := by
  refine bind (modify fun _ _ _ => rfl) fun _ => getBind (fun _ _ _ => rfl) fun f => ?_
  split
  · exact panic
  · exact ite panic (modify fun _ _ _ => rfl)

theorem keyNew (n t c : Str) (l : Int) : Blind (Key.new n t c l) :=
  getBind (fun _ _ _ => rfl) fun _ => bind (i32 _) fun _ => bind (i32 _) fun _ =>
    ite (bind (setEnd _) fun _ => getBind (fun _ _ _ => rfl) fun _ => pure _)
      (getBind (fun _ _ _ => rfl) fun _ => pure _)

theorem newFromBuffer (n t c : Str) (cy : Int) (buf : List Byte) : Blind (Key.newFromBuffer n t c cy buf) :=
  getBind (fun _ _ _ => rfl) fun _ => bind (i32 _) fun _ => bind (i32 _) fun _ => bind (lift _) fun _ =>
    bind (i32 _) fun _ => bind (setEnd _) fun _ => pure _

theorem newFromObject (n t c : Str) (obj : Wr Nat) : Blind (Key.newFromObject n t c obj) :=
  getBind (fun _ _ _ => rfl) fun _ => bind (i32 _) fun _ => bind (marshal _ _) fun _ => bind (i32 _) fun _ =>
    bind (lift _) fun _ => bind (i32 _) fun _ => bind (setEnd _) fun _ => pure _

theorem keyToFile (k : Key) : Blind k.writeToFile :=
  ite panic (bind (marshal _ _) fun _ => bind (writeAt _ _) fun _ => writeAt _ _)

theorem appendTable (b : Basket) (w : WBuffer) : Blind (b.appendTable w) :=
  ite (pure _) (ite panic (bind (i32 _) fun _ => bind (lift _) fun _ => pure _))

theorem basketToFile (b : WBasket) : Blind b.writeToFile :=
  getBind (fun _ _ _ => rfl) fun _ => bind (i32 _) fun _ => bind (appendTable _ _) fun _ =>
    bind (newFromBuffer _ _ _ _ _) fun _ => bind (i32 _) fun _ => bind (marshal _ _) fun _ =>
    bind (writeAt _ _) fun _ => bind (writeAt _ _) fun _ => pure _

theorem flush (b : WBranch) : Blind b.flush :=
  bind (orPanic _) fun _ => bind (basketToFile _) fun _ => pure _

theorem currentBasket (b : WBranch) (tn : Str) : Blind (b.currentBasket tn) := by
  unfold WBranch.currentBasket
  split
  · exact pure _
  · exact getBind (fun _ _ _ => rfl) fun _ => bind (lift _) fun _ => pure _

theorem spill (b : WBranch) (bk : WBasket) (n : Int) (tn : Str) : Blind (b.spill bk n tn) :=
  ite panic (ite (bind (flush _) fun _ => getBind (fun _ _ _ => rfl) fun _ => bind (lift _) fun _ => pure _)
    (pure _))

theorem write (b : WBranch) (tn : Str) : Blind (b.write tn) := by
  refine bind (currentBasket _ _) fun x => ?_
  obtain ⟨b1, bk⟩ := x
  dsimp only
  split
  · exact pure _
  · exact pure _
  · exact bind (lift _) fun _ => bind (spill _ _ _ _) fun _ => pure _

theorem addBytes (tot : Int) (n : Option Int) : Blind (Verif.addBytes tot n) := by
  cases n
  · exact pure _
  · exact i32 _

theorem writeRound (tn : Str) (cb : Nat) (bs : List WBranch) (tot : Int) : Blind (Verif.writeRound tn cb bs tot) := by
  induction bs generalizing tot with
  | nil => exact pure _
  | cons b bs ih =>
    exact bind (write _ _) fun _ => bind (addBytes _ _) fun _ => bind (ih _) fun _ => pure _

theorem writeRounds (fuel : Nat) (done : List Bool) (t : WTree) : Blind (Verif.writeRounds fuel done t) := by
  induction fuel generalizing done t with
  | zero => exact panic
  | succ fuel ih =>
    unfold Verif.writeRounds
    refine bind (writeRound _ _ _ _) fun x => ?_
    obtain ⟨bs, now, tot, log⟩ := x
    exact ite (pure _) (ih _ _)

theorem flushAll (bs : List WBranch) : Blind (Verif.flushAll bs) := by
  induction bs with
  | nil => exact pure _
  | cons b bs ih => exact bind (flush _) fun _ => bind ih fun _ => pure _

theorem sum (acc : Int) (l : List Int) : Blind (Fs.sum acc l) := by
  induction l generalizing acc with
  | nil => exact pure _
  | cons v vs ih => exact bind (i32 _) fun _ => ih _

theorem saveKeys (d : Dir) : Blind (Verif.saveKeys d) :=
  getBind (fun _ _ _ => rfl) fun _ => bind (sum _ _) fun _ => bind (keyNew _ _ _ _) fun _ => bind (marshal _ _) fun _ =>
    bind (keyToFile _) fun _ => pure _

theorem writeDirHeader (d : Dir) : Blind (Verif.writeDirHeader d) :=
  bind (marshal _ _) fun _ => bind (writeAt _ _) fun _ => pure _

theorem writeHeader : Blind Verif.writeHeader :=
  bind (modify fun _ _ _ => rfl) fun _ => bind (modify fun _ _ _ => rfl) fun _ => getBind (fun _ _ _ => rfl) fun _ =>
    bind (marshal _ _) fun _ => bind (writeAt _ _) fun _ => writeAt _ _

theorem writeFreeSegments : Blind Verif.writeFreeSegments :=
  getBind (fun _ _ _ => rfl) fun _ => ite panic (bind (sum _ _) fun _ => bind (keyNew _ _ _ _) fun _ =>
    ite panic (getBind (fun _ _ _ => rfl) fun _ => ite panic (bind (marshal _ _) fun _ =>
      ite panic (bind (modify fun _ _ _ => rfl) fun _ => keyToFile _))))

theorem createFile : Blind Verif.createFile :=
  getBind (fun _ _ _ => rfl) fun _ => bind (i32 _) fun _ => bind (i32 _) fun _ => bind (keyNew _ _ _ _) fun _ =>
    bind (i32 _) fun _ => bind (modify fun _ _ _ => rfl) fun _ => bind writeHeader fun _ =>
    getBind (fun _ _ _ => rfl) fun _ => bind (marshal _ _) fun _ => keyToFile _

/-- Nothing changes. -/
theorem keeps {α} {m : Fs α} (h : Blind m) (f : FileW) : (m f).2.sinfos = f.sinfos ∧ (m f).2.ids = f.ids := by
  have e : m f = ((m f).1, (m f).2.with f.sinfos f.ids) := h f f.sinfos f.ids
  have e2 : (m f).2 = (m f).2.with f.sinfos f.ids := congrArg Prod.snd e
  rw [e2]
  exact ⟨rfl, rfl⟩

end Blind

/-! ### Other numbers -/

/-- The file when the numbers are `δ` more. -/
def FileW.shift (δ : Nat) (f : FileW) : FileW := f.with (f.sinfos.map (StreamerInfo.shift δ)) (f.ids + δ)

/-- All the numbers are below `n`. -/
def StreamerInfo.Low (n : Nat) (s : StreamerInfo) : Prop := s.id < n ∧ ∀ e ∈ s.elems, e.element.id < n

/-- The numbers of the records are below the counter. -/
def FileW.Low (f : FileW) : Prop := ∀ s ∈ f.sinfos, s.Low f.ids

theorem StreamerInfo.Low.le {n m : Nat} {s : StreamerInfo} (h : s.Low n) (hl : n ≤ m) : s.Low m :=
  ⟨Nat.lt_of_lt_of_le h.1 hl, fun e he => Nat.lt_of_lt_of_le (h.2 e he) hl⟩

/-- When the counter is `δ` more, `m'` does what `m` does, as long as the counter does not pass `B`. -/
structure Same (δ B : Nat) {α} (m m' : Fs α) : Prop where
  mono : ∀ f, f.ids ≤ (m f).2.ids
  same : ∀ f, f.Low → (m f).2.ids ≤ B → m' (f.shift δ) = ((m f).1, (m f).2.shift δ) ∧ (m f).2.Low

namespace Same

variable {δ B : Nat}

theorem bind {α β} {m m' : Fs α} {k k' : α → Fs β} (h : Same δ B m m') (hk : ∀ a, Same δ B (k a) (k' a)) :
    Same δ B (m >>= k) (m' >>= k') := by
  have e : ∀ f, (m >>= k) f = match m f with
    | (.ok a, f') => k a f'
    | (.error e, f') => (.error e, f') := fun _ => rfl
  have e' : ∀ f, (m' >>= k') f = match m' f with
    | (.ok a, f') => k' a f'
    | (.error e, f') => (.error e, f') := fun _ => rfl
  refine ⟨fun f => ?_, fun f hl hB => ?_⟩
  · rw [e f]
    have h1 := h.mono f
    rcases hm : m f with ⟨_ | a, f'⟩ <;> rw [hm] at h1
    · exact h1
    · exact Nat.le_trans h1 ((hk a).mono f')
  · rw [e f] at hB ⊢
    rw [e' _]
    have h1 := h.same f hl
    rcases hm : m f with ⟨_ | a, f'⟩ <;> rw [hm] at h1 hB
    · obtain ⟨h2, h3⟩ := h1 hB
      rw [h2]
      exact ⟨rfl, h3⟩
    · obtain ⟨h2, h3⟩ := h1 (Nat.le_trans ((hk a).mono f') hB)
      rw [h2]
      exact (hk a).same f' h3 hB

theorem of {α} {m : Fs α} (h : Blind m) : Same δ B m m := by
  refine ⟨fun f => Nat.le_of_eq (h.keeps f).2.symm, fun f hl _ => ⟨?_, ?_⟩⟩
  · obtain ⟨h1, h2⟩ := h.keeps f
    unfold FileW.shift
    rw [h f, h1, h2]
  · obtain ⟨h1, h2⟩ := h.keeps f
    unfold FileW.Low
    rw [h1, h2]
    exact hl

theorem getBind {β} {k k' : FileW → Fs β} (h' : ∀ f s i, k' (f.with s i) = k' f)
    (hk : ∀ f, Same δ B (k f) (k' f)) : Same δ B (Fs.get >>= k) (Fs.get >>= k') := by
  refine ⟨fun f => (hk f).mono f, fun f hl hB => ?_⟩
  show k' (f.shift δ) (f.shift δ) = _ ∧ _
  rw [show k' (f.shift δ) = k' f from h' ..]
  exact (hk f).same f hl hB

end Same

theorem cloneElems_shift (δ n : Nat) (es : List Streamer) :
    cloneElems (n + δ) es = (cloneElems n es).map (Streamer.shift δ) := by
  induction es generalizing n with
  | nil => rfl
  | cons e es ih =>
    show e.withId (n + δ) :: cloneElems (n + δ + 1) es = (e.withId n).withId _ :: _
    rw [Streamer.withId_withId, Streamer.withId_id, show n + δ + 1 = n + 1 + δ by omega, ih]

theorem cloneElems_low (n : Nat) (es : List Streamer) : ∀ e ∈ cloneElems n es, e.element.id < n + es.length := by
  induction es generalizing n with
  | nil => intro e he; cases he
  | cons x es ih =>
    intro e he
    rcases List.mem_cons.1 he with rfl | he
    · rw [Streamer.withId_id, List.length_cons]; omega
    · have := ih (n + 1) e he
      rw [List.length_cons]; omega

theorem cloneAt_shift (δ n : Nat) (s : StreamerInfo) : s.cloneAt (n + δ) = (s.cloneAt n).shift δ := by
  unfold StreamerInfo.cloneAt StreamerInfo.shift
  dsimp only
  rw [cloneElems_shift, show n + δ + s.elems.length = n + s.elems.length + δ by omega]

theorem lookup_shift {env env' : Env} (h : env'.db = env.db) (δ : Nat) (name : Str) (vers : Int) (n : Nat) :
    env'.lookup name vers (n + δ) = (env.lookup name vers n).map fun r => (r.1.shift δ, r.2 + δ) := by
  unfold Env.lookup
  rw [h]
  cases env.db name vers with
  | none => rfl
  | some s =>
    dsimp only [Except.map]
    rw [cloneAt_shift, show n + δ + s.elems.length + 2 = n + s.elems.length + 2 + δ by omega]
    congr 2
    unfold StreamerInfo.shift
    dsimp only
    rw [show n + δ + s.elems.length + 1 = n + s.elems.length + 1 + δ by omega]

theorem lookup_low {env : Env} {name : Str} {vers : Int} {n m : Nat} {s : StreamerInfo}
    (h : env.lookup name vers n = .ok (s, m)) : s.Low m ∧ n ≤ m := by
  unfold Env.lookup at h
  split at h
  · cases h
  · next x _ =>
    cases h
    refine ⟨⟨by show n + x.elems.length + 1 < _; omega, fun e he => ?_⟩, by omega⟩
    have := cloneElems_low n x.elems e he
    omega

theorem addInfo_shift (δ : Nat) (l : List StreamerInfo) (s : StreamerInfo) :
    addInfo (l.map (StreamerInfo.shift δ)) (s.shift δ) = (addInfo l s).map (StreamerInfo.shift δ) := by
  unfold addInfo
  have e : (l.map (StreamerInfo.shift δ)).any (fun x => x.name = (s.shift δ).name) = l.any (fun x => x.name = s.name) := by
    rw [List.any_map]
    rfl
  rw [e]
  split
  · rfl
  · rw [List.map_append]; rfl

theorem addInfo_low {l : List StreamerInfo} {s : StreamerInfo} {n : Nat} (h : ∀ x ∈ l, x.Low n) (hs : s.Low n) :
    ∀ x ∈ addInfo l s, x.Low n := by
  unfold addInfo
  split
  · exact h
  · intro x hx
    rcases List.mem_append.1 hx with hx | hx
    · exact h x hx
    · rw [List.mem_singleton.1 hx]; exact hs

theorem Fs.assoc {α β γ} (m : Fs α) (k : α → Fs β) (l : β → Fs γ) : m >>= k >>= l = m >>= fun a => k a >>= l := by
  funext f
  show (match (match m f with
      | (.ok a, f') => k a f'
      | (.error e, f') => (.error e, f')) with
    | (.ok a, f') => l a f'
    | (.error e, f') => (.error e, f')) = (match m f with
      | (.ok a, f') => (k a >>= l) f'
      | (.error e, f') => (.error e, f'))
  rcases m f with ⟨_ | a, f'⟩ <;> rfl

/-- What follows. -/
def Fs.next {α β} (x : Except Fault α × FileW) (k : α → Fs β) : Except Fault β × FileW :=
  match x with
  | (.ok a, f') => k a f'
  | (.error e, f') => (.error e, f')

/-- `dictionary` followed by `add_streamer_info`. -/
theorem announce_eq (env : Env) (name : Str) (vers : Int) (f : FileW) :
    (Fs.dictionary env name vers >>= addStreamerInfo) f = match env.lookup name vers f.ids with
      | .error e => (.error e, f)
      | .ok (si, n) => (.ok (), f.with (addInfo f.sinfos si) n) := by
  cases h : env.lookup name vers f.ids with
  | error e =>
    have e1 : Fs.dictionary env name vers f = (.error e, f) := by
      show (Fs.lift (env.lookup name vers f.ids) >>= _) f = _
      rw [h]
      rfl
    show Fs.next (Fs.dictionary env name vers f) addStreamerInfo = _
    rw [e1]
    rfl
  | ok r =>
    have e1 : Fs.dictionary env name vers f = (.ok r.1, { f with ids := r.2 }) := by
      show (Fs.lift (env.lookup name vers f.ids) >>= _) f = _
      rw [h]
      rfl
    show Fs.next (Fs.dictionary env name vers f) addStreamerInfo = _
    rw [e1]
    exact addStreamerInfo_eq _ _

namespace Same

variable {δ B : Nat}

theorem announce {env env' : Env} (h : env'.db = env.db) (name : Str) (vers : Int) :
    Same δ B (Fs.dictionary env name vers >>= addStreamerInfo) (Fs.dictionary env' name vers >>= addStreamerInfo) := by
  refine ⟨fun f => ?_, fun f hl hB => ?_⟩
  · rw [announce_eq]
    split
    · exact Nat.le_refl _
    · next h => exact (lookup_low h).2
  · rw [announce_eq] at hB ⊢
    rw [announce_eq, show (f.shift δ).ids = f.ids + δ from rfl, lookup_shift h]
    cases hk : env.lookup name vers f.ids with
    | error e => exact ⟨rfl, hl⟩
    | ok r =>
      obtain ⟨s, n⟩ := r
      obtain ⟨h1, h2⟩ := lookup_low hk
      refine ⟨?_, addInfo_low (fun x hx => (hl x hx).le h2) h1⟩
      dsimp only [Except.map]
      rw [show (f.shift δ).sinfos = f.sinfos.map (StreamerInfo.shift δ) from rfl, addInfo_shift]
      rfl

theorem register (si : StreamerInfo) : Same δ B (registerInfo si) (registerInfo si) := by
  refine ⟨fun f => ?_, fun f hl hB => ?_⟩
  · rw [registerInfo_eq]
    show f.ids ≤ f.ids + si.elems.length + 1
    omega
  · rw [registerInfo_eq, registerInfo_eq, show (f.shift δ).ids = f.ids + δ from rfl, cloneAt_shift,
      show (f.shift δ).sinfos = f.sinfos.map (StreamerInfo.shift δ) from rfl, addInfo_shift]
    refine ⟨?_, addInfo_low (n := f.ids + si.elems.length + 1) (fun x hx => (hl x hx).le (by omega)) ⟨?_, fun e he => ?_⟩⟩
    · unfold FileW.shift FileW.with
      dsimp only
      rw [show f.ids + δ + si.elems.length + 1 = f.ids + si.elems.length + 1 + δ by omega]
    · show f.ids + si.elems.length < _
      omega
    · have := cloneElems_low f.ids si.elems e he
      omega

theorem registerAll (l : List StreamerInfo) : Same δ B (Verif.registerAll l) (Verif.registerAll l) := by
  induction l with
  | nil => exact of (.pure _)
  | cons s l ih => exact bind (register s) fun _ => ih

theorem addDeps {env env' : Env} (h : env'.db = env.db) (ds : List (Str × Int)) :
    Same δ B (Verif.addDeps env ds) (Verif.addDeps env' ds) := by
  induction ds with
  | nil => exact of (.pure _)
  | cons d ds ih =>
    unfold Verif.addDeps
    split
    · exact ih
    · have e := fun env => Fs.assoc (Fs.dictionary env d.1 d.2) addStreamerInfo fun _ => Verif.addDeps env ds
      rw [← e, ← e]
      exact bind (announce h _ _) fun _ => ih

end Same

/-! ### Visiting class records -/

/-- The state of a visit with other numbers. -/
def VisitState.shift (δ : Nat) (st : VisitState) : VisitState :=
  { st with visited := st.visited.map (· + δ), ids := st.ids + δ }

theorem Streamer.shift_dep (δ : Nat) (s : Streamer) : (s.shift δ).dep = s.dep := by cases s <;> rfl
theorem Streamer.shift_next (δ : Nat) (s : Streamer) : (s.shift δ).next = s.next := by cases s <;> rfl
theorem Streamer.shift_ename (δ : Nat) (s : Streamer) : (s.shift δ).element.ename = s.element.ename := by cases s <;> rfl

theorem Res.bind_map {α β} (r : Res α) (g : α → β) {γ} (k : β → Res γ) :
    (r.map g >>= k) = r >>= fun a => k (g a) := by cases r <;> rfl

theorem visitElem_shift {env env' : Env} (h : env'.db = env.db) {δ : Nat} {run run' : List Streamer → VisitState → Res VisitState}
    (hr : ∀ es st, run' (es.map (Streamer.shift δ)) (st.shift δ) = (run es st).map (VisitState.shift δ))
    (se : Streamer) (st : VisitState) :
    visitElem env' run' (se.shift δ) (st.shift δ) = (visitElem env run se st).map (VisitState.shift δ) := by
  unfold visitElem
  have e1 : (se.shift δ).element.id = se.element.id + δ := Streamer.withId_id _ _
  have e2 : (se.shift δ).element.id ∈ (st.shift δ).visited ↔ se.element.id ∈ st.visited := by
    rw [e1]
    show _ ∈ st.visited.map (· + δ) ↔ _
    rw [List.mem_map]
    exact ⟨fun ⟨a, h1, h2⟩ => by rwa [show a = se.element.id by omega] at h1, fun h => ⟨_, h, rfl⟩⟩
  by_cases hm : se.element.id ∈ st.visited
  · rw [if_pos hm, if_pos (e2.2 hm)]; rfl
  · rw [if_neg hm, if_neg (fun x => hm (e2.1 x)), Streamer.shift_dep, Streamer.shift_next, Streamer.shift_ename]
    cases se.dep with
    | error e => rfl
    | ok d =>
      have e3 : ({ st.shift δ with visited := (st.shift δ).visited ++ [(se.shift δ).element.id],
                                   deps := (st.shift δ).deps ++ d.toList } : VisitState) =
          ({ st with visited := st.visited ++ [se.element.id], deps := st.deps ++ d.toList } : VisitState).shift δ := by
        unfold VisitState.shift
        dsimp only
        rw [List.map_append, e1]
        rfl
      show (if _ then _ else _) = Except.map _ (if _ then _ else _)
      dsimp only
      rw [e3]
      split
      · rfl
      · cases se.next with
        | none => rfl
        | some name =>
          dsimp only
          have e4 := lookup_shift h δ name (-1) st.ids
          show (env'.lookup name (-1) (st.ids + δ) >>= _) = Except.map _ (env.lookup name (-1) st.ids >>= _)
          rw [e4]
          cases env.lookup name (-1) st.ids with
          | error e => rfl
          | ok r =>
            obtain ⟨s, n⟩ := r
            have e5 : (VisitState.mk ((st.shift δ).visited ++ [(se.shift δ).element.id]) ((st.shift δ).deps ++ d.toList)
                (n + δ)) =
              (VisitState.mk (st.visited ++ [se.element.id]) (st.deps ++ d.toList) n).shift δ := by
              unfold VisitState.shift
              dsimp only
              rw [List.map_append, e1]
              rfl
            show run' (s.elems.map (Streamer.shift δ)) (VisitState.mk _ _ _) = _
            rw [e5]
            exact hr s.elems { st with visited := st.visited ++ [se.element.id], deps := st.deps ++ d.toList, ids := n }

theorem visitElems_shift {env env' : Env} (h : env'.db = env.db) {δ : Nat} (fuel : Nat) : ∀ es st,
    visitElems env' fuel (es.map (Streamer.shift δ)) (st.shift δ) = (visitElems env fuel es st).map (VisitState.shift δ) := by
  induction fuel with
  | zero =>
    intro es st
    cases es <;> rfl
  | succ fuel ih =>
    intro es
    show ∀ st, List.foldlM _ _ _ = Except.map _ (List.foldlM _ _ _)
    induction es with
    | nil => intro st; rfl
    | cons e es ihe =>
      intro st
      rw [List.map_cons, List.foldlM_cons, List.foldlM_cons, visitElem_shift h ih, Res.bind_map]
      cases visitElem env (visitElems env fuel) e st with
      | error e => rfl
      | ok st' => exact ihe st'

theorem visitElem_mono {env : Env} {run : List Streamer → VisitState → Res VisitState}
    (hr : ∀ es st st', run es st = .ok st' → st.ids ≤ st'.ids) {se : Streamer} {st st' : VisitState}
    (h : visitElem env run se st = .ok st') : st.ids ≤ st'.ids := by
  unfold visitElem at h
  split at h
  · cases h; exact Nat.le_refl _
  · obtain ⟨d, -, h⟩ := Res.ok_bind.1 h
    dsimp only at h
    split at h
    · cases h; exact Nat.le_refl _
    · split at h
      · cases h; exact Nat.le_refl _
      · obtain ⟨⟨s, n⟩, h1, h⟩ := Res.ok_bind.1 h
        exact Nat.le_trans (lookup_low h1).2 (hr _ _ _ h)

theorem visitElems_mono {env : Env} (fuel : Nat) : ∀ es st st', visitElems env fuel es st = .ok st' → st.ids ≤ st'.ids := by
  induction fuel with
  | zero =>
    intro es st st' h
    unfold visitElems at h
    split at h
    · cases h; exact Nat.le_refl _
    · cases h
  | succ fuel ih =>
    intro es
    show ∀ st st', List.foldlM _ _ _ = _ → _
    induction es with
    | nil => intro st st' h; cases h; exact Nat.le_refl _
    | cons e es ihe =>
      intro st st' h
      rw [List.foldlM_cons] at h
      obtain ⟨st1, h1, h⟩ := Res.ok_bind.1 h
      exact Nat.le_trans (visitElem_mono ih h1) (ihe _ _ h)

theorem visitInfos_shift {env env' : Env} (h : env'.db = env.db) {δ : Nat} (sis : List StreamerInfo) (n : Nat) :
    visitInfos env' (sis.map (StreamerInfo.shift δ)) (n + δ) = (visitInfos env sis n).map fun r => (r.1, r.2 + δ) := by
  unfold visitInfos
  suffices H : ∀ (sis : List StreamerInfo) (ds : List (Str × Int)) (n : Nat),
      ((sis.map (StreamerInfo.shift δ)).foldlM (fun (acc : List (Str × Int) × Nat) (si : StreamerInfo) => do
        let st ← visitElems env' 10 si.elems { deps := acc.1, ids := acc.2 }
        pure (st.deps, st.ids)) (ds, n + δ) : Res (List (Str × Int) × Nat)) =
      Except.map (fun (r : List (Str × Int) × Nat) => (r.1, r.2 + δ))
        (sis.foldlM (fun (acc : List (Str × Int) × Nat) (si : StreamerInfo) => do
        let st ← visitElems env 10 si.elems { deps := acc.1, ids := acc.2 }
        pure (st.deps, st.ids)) (ds, n) : Res (List (Str × Int) × Nat)) from H sis [] n
  intro sis
  induction sis with
  | nil => intro ds n; rfl
  | cons s sis ih =>
    intro ds n
    rw [List.map_cons, List.foldlM_cons, List.foldlM_cons]
    have e := visitElems_shift h (δ := δ) 10 s.elems { deps := ds, ids := n }
    have e' : visitElems env' 10 (s.shift δ).elems { deps := ds, ids := n + δ } =
      (visitElems env 10 s.elems { deps := ds, ids := n }).map (VisitState.shift δ) := e
    dsimp only
    rw [e']
    cases visitElems env 10 s.elems { deps := ds, ids := n } with
    | error e => rfl
    | ok st => exact ih st.deps st.ids

theorem visitInfos_mono {env : Env} {sis : List StreamerInfo} {n m : Nat} {ds : List (Str × Int)}
    (h : visitInfos env sis n = .ok (ds, m)) : n ≤ m := by
  unfold visitInfos at h
  suffices H : ∀ (sis : List StreamerInfo) (ds0 : List (Str × Int)) (n : Nat),
      sis.foldlM (fun (acc : List (Str × Int) × Nat) si => do
        let st ← visitElems env 10 si.elems { deps := acc.1, ids := acc.2 }
        pure (st.deps, st.ids)) (ds0, n) = (.ok (ds, m) : Res _) → n ≤ m from H sis [] n h
  intro sis
  induction sis with
  | nil => intro ds n h; cases h; exact Nat.le_refl _
  | cons s sis ih =>
    intro ds n h
    rw [List.foldlM_cons] at h
    obtain ⟨⟨d1, n1⟩, h1, h⟩ := Res.ok_bind.1 h
    obtain ⟨st, h2, h1⟩ := Res.ok_bind.1 h1
    cases h1
    exact Nat.le_trans (visitElems_mono _ _ _ _ h2) (ih _ _ h)

namespace Same

variable {δ B : Nat}

theorem findDeep {env env' : Env} (h : env'.db = env.db) : Same δ B (findDeepStreamer env) (findDeepStreamer env') := by
  have e : ∀ (env : Env) f, findDeepStreamer env f = match visitInfos env f.sinfos f.ids with
      | .error e => (.error e, f)
      | .ok (ds, n) => Verif.addDeps env ds (f.with f.sinfos n) := by
    intro env f
    show (Fs.lift (visitInfos env f.sinfos f.ids) >>= _) f = _
    cases visitInfos env f.sinfos f.ids <;> rfl
  refine ⟨fun f => ?_, fun f hl hB => ?_⟩
  · rw [e]
    cases hv : visitInfos env f.sinfos f.ids with
    | error e => exact Nat.le_refl _
    | ok r =>
      obtain ⟨ds, n⟩ := r
      exact Nat.le_trans (visitInfos_mono hv) ((addDeps (δ := δ) (B := B) (env' := env') h ds).mono (f.with f.sinfos n))
  · rw [e] at hB ⊢
    rw [e]
    have e2 := visitInfos_shift h (δ := δ) f.sinfos f.ids
    rw [show (f.shift δ).sinfos = f.sinfos.map (StreamerInfo.shift δ) from rfl, show (f.shift δ).ids = f.ids + δ from rfl, e2]
    cases hv : visitInfos env f.sinfos f.ids with
    | error e => exact ⟨rfl, hl⟩
    | ok r =>
      obtain ⟨ds, n⟩ := r
      rw [hv] at hB
      exact (addDeps h ds).same (f.with f.sinfos n) (fun x hx => (hl x hx).le (visitInfos_mono hv)) hB

end Same

/-! ### Addresses -/

theorem Fs.marshal_congr {R : Nat → Nat → Prop} {m m' : Wr Nat} (h : Agree R m m') (off : Int) :
    Fs.marshal off m = Fs.marshal off m' := by
  funext f
  unfold Fs.marshal
  rcases h (WBuffer.new off.toNat) (WBuffer.new off.toNat) ⟨rfl, rfl, rfl, rfl, fun _ _ _ => rfl⟩ with
    ⟨e, h1, h2⟩ | ⟨a, v, v', h1, h2, hv⟩
  · rw [h1, h2]
  · rw [h1, h2]
    show (Except.ok v.p, f) = (Except.ok v'.p, f)
    rw [hv.p]

theorem newFromObject_congr {R : Nat → Nat → Prop} {m m' : Wr Nat} (h : Agree R m m') (n t c : Str) :
    Key.newFromObject n t c m = Key.newFromObject n t c m' := by
  unfold Key.newFromObject
  simp only [Fs.marshal_congr h]

theorem placed_same {R : Nat → Nat → Prop} {places places' : Places} (bs : List WBranch) : ∀ i,
    (∀ j, i ≤ j → j < i + bs.length → R (places j).1 (places' j).1 ∧ SameAddrs R (places j).2 (places' j).2) →
    SameBranches R (placeBranches places i bs) (placeBranches places' i bs) := by
  induction bs with
  | nil => intro i _; exact .nil
  | cons b bs ih =>
    intro i h
    rw [List.length_cons] at h
    obtain ⟨h1, h2⟩ := h i (Nat.le_refl _) (by omega)
    exact .cons rfl h1 h2 (ih (i + 1) fun j a b => h j (by omega) (by omega))

/-- The address of a branch and those of its leaves. -/
def Places.block (places : Places) (i : Nat) : List Nat := (places i).1 :: (places i).2

/-- The addresses of the same branch or leaf. -/
def SamePlace (n : Nat) (places places' : Places) (a b : Nat) : Prop :=
  ∃ i < n, ∃ k : Nat, (places.block i)[k]? = some a ∧ (places'.block i)[k]? = some b

theorem blocks_inj {n : Nat} {B : Nat → List Nat} (h : ((List.range n).flatMap B).Nodup) {i j k l a : Nat} (hi : i < n)
    (hj : j < n) (h1 : (B i)[k]? = some a) (h2 : (B j)[l]? = some a) : i = j ∧ k = l := by
  obtain ⟨h3, h4⟩ := List.pairwise_flatMap.1 h
  have hij : i = j := by
    rcases Nat.lt_trichotomy i j with hlt | heq | hlt
    · exact absurd rfl (List.pairwise_iff_getElem.1 h4 i j (by simpa using hi) (by simpa using hj) hlt a
        (by simpa using List.mem_of_getElem? h1) a (by simpa using List.mem_of_getElem? h2))
    · exact heq
    · exact absurd rfl (List.pairwise_iff_getElem.1 h4 j i (by simpa using hj) (by simpa using hi) hlt a
        (by simpa using List.mem_of_getElem? h2) a (by simpa using List.mem_of_getElem? h1))
  subst hij
  refine ⟨rfl, ?_⟩
  have hnd : (B i).Nodup := h3 i (List.mem_range.2 hi)
  have hk : k < (B i).length := (List.getElem?_eq_some_iff.1 h1).1
  exact (List.getElem?_inj hk hnd).1 (h1.trans h2.symm)

theorem samePlace_biUnique {n : Nat} {places places' : Places}
    (h : ((List.range n).flatMap places.block).Nodup) (h' : ((List.range n).flatMap places'.block).Nodup) :
    BiUnique (SamePlace n places places') := by
  rintro a b c d ⟨i, hi, k, h1, h2⟩ ⟨j, hj, l, h3, h4⟩
  constructor
  · rintro rfl
    obtain ⟨rfl, rfl⟩ := blocks_inj h hi hj h1 h3
    rw [h2] at h4
    exact Option.some.inj h4
  · rintro rfl
    obtain ⟨rfl, rfl⟩ := blocks_inj h' hi hj h2 h4
    rw [h1] at h3
    exact Option.some.inj h3

theorem SameAddrs.ofGet {R : Nat → Nat → Prop} : ∀ {l l' : List Nat}, l'.length = l.length →
    (∀ (k a b : Nat), l[k]? = some a → l'[k]? = some b → R a b) → SameAddrs R l l'
  | [], [], _, _ => .nil
  | a :: l, b :: l', hl, h => .cons (h 0 a b rfl rfl)
      (SameAddrs.ofGet (by simpa using hl) fun k x y h1 h2 => h (k + 1) x y h1 h2)

/-- The places can be those of `n` branches. -/
structure Places.Ok (n : Nat) (places : Places) : Prop where
  one : ∀ i, (places i).2.length = 1
  distinct : ((List.range n).flatMap fun i => (places i).1 :: (places i).2).Nodup

theorem putObj_same {t : WTree} {places places' : Places} (h : places.Ok t.branches.length)
    (h' : places'.Ok t.branches.length) (n ti c : Str) :
    Key.newFromObject n ti c (t.putObj places).marshal = Key.newFromObject n ti c (t.putObj places').marshal := by
  have hR := samePlace_biUnique h.distinct h'.distinct
  refine newFromObject_congr (Agree.tree hR t.data (placed_same _ 0 fun j _ hj => ?_)) n ti c
  rw [Nat.zero_add] at hj
  refine ⟨⟨j, hj, 0, rfl, rfl⟩, SameAddrs.ofGet (by rw [h.one, h'.one]) fun k a b h1 h2 => ⟨j, hj, k + 1, h1, h2⟩⟩

/-! ### The number of branches -/

theorem writeRound_length {tn : Str} {cb : Nat} {bs : List WBranch} : ∀ {tot : Int} {f f' : FileW} {r},
    writeRound tn cb bs tot f = (.ok r, f') → r.1.length = bs.length := by
  induction bs with
  | nil =>
    intro tot f f' r h
    cases h
    rfl
  | cons b bs ih =>
    intro tot f f' r h
    unfold writeRound at h
    obtain ⟨⟨b', n⟩, f1, h1, h⟩ := Fs.ok_bind.1 h
    obtain ⟨t, f2, h2, h⟩ := Fs.ok_bind.1 h
    obtain ⟨⟨bs', dn, t', lg⟩, f3, h3, h⟩ := Fs.ok_bind.1 h
    cases h
    rw [List.length_cons, List.length_cons, ih h3]

theorem writeRounds_length {fuel : Nat} : ∀ {done : List Bool} {t t' : WTree} {f f' : FileW},
    writeRounds fuel done t f = (.ok t', f') → t'.branches.length = t.branches.length := by
  induction fuel with
  | zero => intro done t t' f f' h; cases h
  | succ fuel ih =>
    intro done t t' f f' h
    unfold writeRounds at h
    obtain ⟨⟨bs, now, tot, log⟩, f1, h1, h⟩ := Fs.ok_bind.1 h
    dsimp only at h
    split at h
    · cases h
      exact writeRound_length h1
    · have h2 := ih h
      rw [h2]
      exact writeRound_length h1

theorem flushAll_length {bs : List WBranch} : ∀ {bs' : List WBranch} {f f' : FileW},
    flushAll bs f = (.ok bs', f') → bs'.length = bs.length := by
  induction bs with
  | nil =>
    intro bs' f f' h
    cases h
    rfl
  | cons b bs ih =>
    intro bs' f f' h
    unfold flushAll at h
    obtain ⟨b', f1, h1, h⟩ := Fs.ok_bind.1 h
    obtain ⟨bs'', f2, h2, h⟩ := Fs.ok_bind.1 h
    cases h
    rw [List.length_cons, List.length_cons, ih h2]

theorem newBranch_length {t t' : WTree} {ty : Ty} {name : Str} {items : List (Option ty.Val)}
    (h : t.newBranch ty name items = .ok t') : t'.branches.length = t.branches.length + 1 := by
  unfold WTree.newBranch WTree.pushBranch at h
  obtain ⟨⟨b, sis⟩, h1, h⟩ := Res.ok_bind.1 h
  dsimp only at h
  split at h
  · cases h
    simp
  · split at h
    · cases h
    · cases h
      simp

theorem buildTree_length {name : Str} {cb : Nat} {cols : List Column} {t : WTree} (h : buildTree name cb cols = .ok t) :
    t.branches.length = cols.length := by
  unfold buildTree at h
  suffices H : ∀ (cols : List Column) (t0 : WTree),
      cols.foldlM (fun t c => t.newBranch c.ty c.name (c.vals.map some)) t0 = .ok t →
      t.branches.length = t0.branches.length + cols.length by
    have := H cols _ h
    rw [this]
    exact Nat.zero_add _
  intro cols
  induction cols with
  | nil => intro t0 h; cases h; rfl
  | cons c cols ih =>
    intro t0 h
    rw [List.foldlM_cons] at h
    obtain ⟨t1, h1, h⟩ := Res.ok_bind.1 h
    rw [ih t1 h, newBranch_length h1, List.length_cons]
    omega

/-! ### Whole files -/

namespace Same

variable {δ B : Nat}

theorem bindOk {α β} {m m' : Fs α} {k k' : α → Fs β} (h : Same δ B m m')
    (hk : ∀ a, (∃ f f', m f = (.ok a, f')) → Same δ B (k a) (k' a)) : Same δ B (m >>= k) (m' >>= k') := by
  have e : ∀ f, (m >>= k) f = Fs.next (m f) k := fun _ => rfl
  have e' : ∀ f, (m' >>= k') f = Fs.next (m' f) k' := fun _ => rfl
  refine ⟨fun f => ?_, fun f hl hB => ?_⟩
  · rw [e f]
    have h1 := h.mono f
    rcases hm : m f with ⟨_ | a, f'⟩ <;> rw [hm] at h1
    · exact h1
    · exact Nat.le_trans h1 ((hk a ⟨f, f', hm⟩).mono f')
  · rw [e f] at hB ⊢
    rw [e' _]
    have h1 := h.same f hl
    rcases hm : m f with ⟨_ | a, f'⟩ <;> rw [hm] at h1 hB
    · obtain ⟨h2, h3⟩ := h1 hB
      rw [h2]
      exact ⟨rfl, h3⟩
    · obtain ⟨h2, h3⟩ := h1 (Nat.le_trans ((hk a ⟨f, f', hm⟩).mono f') hB)
      rw [h2]
      exact (hk a ⟨f, f', hm⟩).same f' h3 hB

theorem put {env env' : Env} (h : env'.db = env.db) (name : Str) {obj obj' : PutObj}
    (ho : obj' = { obj with marshal := obj'.marshal })
    (hm : ∀ n t c, Key.newFromObject n t c obj.marshal = Key.newFromObject n t c obj'.marshal) :
    Same δ B (Verif.put env name obj) (Verif.put env' name obj') := by
  rw [ho]
  unfold Verif.put
  dsimp only
  split
  · exact of (.fail _)
  · refine getBind (fun _ _ _ => rfl) fun f => ?_
    split
    · exact of (.fail _)
    · next c _ =>
      have hrest : ∀ (u : Unit), Same δ B (do
          let key ← Key.newFromObject (if name = [] then obj.name else name) obj.title obj.cls obj.marshal
          let key := { key with cycle := asI 2 (c + 1) }
          Key.writeToFile key
          Fs.modify fun f => { f with dir := { f.dir with keys := f.dir.keys ++ [key] } }) (do
          let key ← Key.newFromObject (if name = [] then obj.name else name) obj.title obj.cls obj'.marshal
          let key := { key with cycle := asI 2 (c + 1) }
          Key.writeToFile key
          Fs.modify fun f => { f with dir := { f.dir with keys := f.dir.keys ++ [key] } }) := by
        intro u
        rw [hm]
        exact bind (of (.newFromObject _ _ _ _)) fun _ => bind (of (.keyToFile _)) fun _ => of (.modify fun _ _ _ => rfl)
      split
      · have e := fun (env : Env) (k : Unit → Fs Unit) => Fs.assoc (Fs.dictionary env obj.cls obj.vers) addStreamerInfo k
        rw [← e, ← e]
        exact bind (announce h _ _) hrest
      · exact hrest ()

theorem close {env env' : Env} (h : env'.db = env.db) {places places' : Places} {t : WTree}
    (hp : places.Ok t.branches.length) (hp' : places'.Ok t.branches.length) :
    Same δ B (t.close env places) (t.close env' places') := by
  unfold WTree.close
  refine bindOk (of (.flushAll _)) fun bs ⟨f, f', hf⟩ => ?_
  have hl := flushAll_length hf
  exact bind (put h _ rfl (putObj_same (t := { t with branches := bs }) (hl ▸ hp) (hl ▸ hp'))) fun _ =>
    bind (of (.orPanic _)) fun _ => bind (registerAll _) fun _ => of (.pure _)

theorem write {env env' : Env} (h : env'.db = env.db) {places places' : Places} {t : WTree}
    (hp : places.Ok t.branches.length) (hp' : places'.Ok t.branches.length) :
    Same δ B (t.write env places) (t.write env' places') := by
  unfold WTree.write
  refine bindOk (of (.writeRounds _ _ _)) fun t' ⟨f, f', hf⟩ => ?_
  have hl := writeRounds_length hf
  exact close h (hl ▸ hp) (hl ▸ hp')

end Same

/-- The addresses and numbers of the same records. -/
def SameRecord (δ B : Nat) (env env' : Env) (a b : Nat) : Prop :=
  (a < B ∧ b = a + δ) ∨ ∃ j, a = env.addr j ∧ b = env'.addr j

theorem sameRecord_biUnique {δ B : Nat} {env env' : Env} (hi : ∀ i j, env.addr i = env.addr j → i = j)
    (hi' : ∀ i j, env'.addr i = env'.addr j → i = j) (hB : ∀ j, B ≤ env.addr j) (hB' : ∀ j, B + δ ≤ env'.addr j) :
    BiUnique (SameRecord δ B env env') := by
  rintro a b c d (⟨h1, h2⟩ | ⟨i, h1, h2⟩) (⟨h3, h4⟩ | ⟨j, h3, h4⟩)
  · omega
  · have := hB j; have := hB' j; omega
  · have := hB i; have := hB' i; omega
  · subst h1 h2 h3 h4
    exact ⟨fun h => by rw [hi _ _ h], fun h => by rw [hi' _ _ h]⟩

theorem placedInfos_same {δ B : Nat} {env env' : Env} (hR : BiUnique (SameRecord δ B env env')) {sis : List StreamerInfo}
    (h : ∀ s ∈ sis, s.Low B) : ∀ i, SameObjs (SameRecord δ B env env') (placedInfos env i sis)
      (placedInfos env' i (sis.map (StreamerInfo.shift δ))) := by
  induction sis with
  | nil => intro i; exact .nil
  | cons s sis ih =>
    intro i
    have hs := h s (List.mem_cons_self ..)
    exact .cons rfl (.inr ⟨i, rfl, rfl⟩)
      (Agree.info hR (.inl ⟨hs.1, rfl⟩) fun e he => .inl ⟨hs.2 e he, rfl⟩)
      (ih (fun x hx => h x (List.mem_cons_of_mem _ hx)) (i + 1))

namespace Same

variable {δ B : Nat}

theorem writeStreamerInfo {env env' : Env} (h : env'.db = env.db) (hi : ∀ i j, env.addr i = env.addr j → i = j)
    (hi' : ∀ i j, env'.addr i = env'.addr j → i = j) (hB : ∀ j, B ≤ env.addr j) (hB' : ∀ j, B + δ ≤ env'.addr j) :
    Same δ B (Verif.writeStreamerInfo env) (Verif.writeStreamerInfo env') := by
  unfold Verif.writeStreamerInfo
  refine bind (findDeep h) fun _ => ?_
  have hR := sameRecord_biUnique hi hi' hB hB'
  have hb : ∀ (env : Env) (f : FileW), Blind (if f.header.seekInfo ≠ 0 then Fs.panic
    else do
      let key ← Key.new (b! "StreamerInfo") listTitle (b! "TList") 0
      let buf ← Fs.marshal key.keyLen
        (TList.marshal TObject.default none (placedInfos env 0 f.sinfos))
      let key ← Key.newFromBuffer (b! "StreamerInfo") listTitle (b! "TList") 1 buf
      Fs.modify fun f => { f with
        header := { f.header with seekInfo := key.seekKey, nBytesInfo := key.nBytes } }
      Key.writeToFile key) := fun env f =>
    .ite .panic (.bind (.keyNew _ _ _ _) fun _ => .bind (.marshal _ _) fun _ => .bind (.newFromBuffer _ _ _ _ _) fun _ =>
      .bind (.modify fun _ _ _ => rfl) fun _ => .keyToFile _)
  refine ⟨fun f => Nat.le_of_eq ((hb env f).keeps f).2.symm, fun f hl hle => ?_⟩
  have hids : f.ids ≤ B := by
    have := ((hb env f).keeps f).2
    exact this ▸ hle
  have key := (of (δ := δ) (B := B) (hb env f)).same f hl hle
  refine ⟨Eq.trans ?_ key.1, key.2⟩
  show (if f.header.seekInfo ≠ 0 then Fs.panic else _ : Fs Unit) (f.shift δ) = (if f.header.seekInfo ≠ 0 then Fs.panic else _ : Fs Unit) (f.shift δ)
  have e : ∀ off, Fs.marshal off (TList.marshal TObject.default none (placedInfos env 0 f.sinfos)) =
      Fs.marshal off (TList.marshal TObject.default none (placedInfos env' 0 (f.shift δ).sinfos)) := fun off =>
    Fs.marshal_congr (Agree.tlist hR _ _ (placedInfos_same hR (fun s hs => (hl s hs).le hids) 0)) off
  simp only [e]

theorem closeFile {env env' : Env} (h : env'.db = env.db) (hi : ∀ i j, env.addr i = env.addr j → i = j)
    (hi' : ∀ i j, env'.addr i = env'.addr j → i = j) (hB : ∀ j, B ≤ env.addr j) (hB' : ∀ j, B + δ ≤ env'.addr j) :
    Same δ B (Verif.closeFile env) (Verif.closeFile env') :=
  getBind (fun _ _ _ => rfl) fun _ => bind (of (.saveKeys _)) fun _ => bind (of (.writeDirHeader _)) fun _ =>
    bind (of (.modify fun _ _ _ => rfl)) fun _ => bind (writeStreamerInfo h hi hi' hB hB') fun _ =>
    bind (of .writeFreeSegments) fun _ => of .writeHeader

end Same
end Verif
