import Verif.Lemmas.Feeds
import Verif.Lemmas.TypeNames
import Verif.Props.Reopen
import Verif.Props.TreeRecords
/-
A file that holds a tree, opened again.
-/
namespace Verif

/-! ### Where the class records of a file come from -/

section
variable {P : StreamerInfo → Prop} {env : Env}

theorem addInfo_all {l : List StreamerInfo} {s : StreamerInfo} (hl : ∀ x ∈ l, P x) (hs : P s) :
    ∀ x ∈ addInfo l s, P x := by
  unfold addInfo
  split
  · exact hl
  · intro x hx
    rcases List.mem_append.1 hx with hx | hx
    · exact hl x hx
    · rw [List.mem_singleton.1 hx]; exact hs

theorem lookup_all (hcl : ∀ s n m, P s → P { s.cloneAt n with id := m })
    (hdb : ∀ n v s, env.db n v = some s → P s) {name : Str} {vers : Int} {n m : Nat} {si : StreamerInfo}
    (h : env.lookup name vers n = .ok (si, m)) : P si := by
  obtain ⟨s, hd, rfl, -⟩ := lookup_ok h
  exact hcl _ _ _ (hdb _ _ _ hd)

theorem addDeps_all (hcl : ∀ s n m, P s → P { s.cloneAt n with id := m })
    (hdb : ∀ n v s, env.db n v = some s → P s) {ds : List (Str × Int)} {f f' : FileW} {u : Unit}
    (h : addDeps env ds f = (.ok u, f')) (hi : ∀ x ∈ f.sinfos, P x) : ∀ x ∈ f'.sinfos, P x := by
  induction ds generalizing f with
  | nil =>
    obtain ⟨-, rfl⟩ := Fs.ok_pure.1 h
    exact hi
  | cons d ds ih =>
    unfold addDeps at h
    split at h
    · exact ih h hi
    · obtain ⟨si, f1, h0, h1⟩ := Fs.ok_bind.1 h
      obtain ⟨m, hl, rfl⟩ := Fs.dictionary_ok h0
      rw [Fs.bind_of_ok (addStreamerInfo_eq _ _)] at h1
      exact ih h1 (addInfo_all hi (lookup_all hcl hdb hl))

theorem findDeep_all (hcl : ∀ s n m, P s → P { s.cloneAt n with id := m })
    (hdb : ∀ n v s, env.db n v = some s → P s) {f f' : FileW} {u : Unit}
    (h : findDeepStreamer env f = (.ok u, f')) (hi : ∀ x ∈ f.sinfos, P x) : ∀ x ∈ f'.sinfos, P x := by
  unfold findDeepStreamer at h
  rw [Fs.bind_of_ok (Fs.ok_get.2 ⟨rfl, rfl⟩)] at h
  obtain ⟨⟨ds, n⟩, _, h0, h1⟩ := Fs.ok_bind.1 h
  obtain ⟨hv, rfl⟩ := Fs.ok_lift.1 h0
  obtain ⟨_, _, h2, h3⟩ := Fs.ok_bind.1 h1
  obtain rfl := Fs.ok_modify.1 h2
  exact addDeps_all hcl hdb h3 hi

theorem step_all (hcl : ∀ s n m, P s → P { s.cloneAt n with id := m })
    (hdb : ∀ n v s, env.db n v = some s → P s) {path : Str} {op : Op} (ho : ∀ si, op = .register si → P si)
    {r : Res Unit} {f f' : FileW} (hi : Inv path f) (h : op.run env f = (r, f'))
    (hr : r ≠ .error .panic) (hb : f'.Below2GB) (hk : ∀ x ∈ f.sinfos, P x) : ∀ x ∈ f'.sinfos, P x := by
  have ann : ∀ {obj g}, Announced env obj f g → ∀ x ∈ g.sinfos, P x := by
    intro obj g ha
    cases ha with
    | core _ => exact hk
    | found _ hl => exact addInfo_all hk (lookup_all hcl hdb hl)
  cases op with
  | put name obj =>
    rcases r with (e | e) | u
    · rcases put_err hi.good h with rfl | ha
      · exact hk
      · exact ann ha
    · exact absurd rfl hr
    · obtain ⟨-, c, f1, m, w, -, ha, -, -, -, rfl⟩ := put_ok hi.good h
      have := ann ha
      exact this
  | basket b =>
    simp only [Op.run] at h
    generalize hw : b.writeToFile f = x at h
    obtain ⟨(e | e) | ⟨b', n, m⟩, f1⟩ := x
    · exact absurd hw (WBasket.writeToFile_err hi.good)
    · cases h; exact absurd rfl hr
    · cases h
      obtain ⟨-, w, -, -, ht, -⟩ := basket_inv hi hw hb
      rw [ht]; exact hk
  | register si =>
    simp only [Op.run] at h
    rw [registerInfo_eq] at h
    cases h
    exact addInfo_all hk (hcl _ _ (f.ids + si.elems.length) (ho si rfl))

theorem runs_all (hcl : ∀ s n m, P s → P { s.cloneAt n with id := m })
    (hdb : ∀ n v s, env.db n v = some s → P s) {path : Str} {ops : List Op}
    (ho : ∀ si, Op.register si ∈ ops → P si) {f g : FileW} (hi : Inv path f) (h : Runs env f ops g)
    (hk : ∀ x ∈ f.sinfos, P x) : ∀ x ∈ g.sinfos, P x := by
  induction h with
  | nil => exact hk
  | @snoc ops g op r g' h1 h2 h3 h4 ih =>
    refine step_all hcl hdb (fun si hs => ho si ?_) (runs_inv hi h1) h2 h3 h4
      (ih fun si hs => ho si (List.mem_append_left _ hs))
    rw [hs]; simp

end

theorem DescribesVector.clone {c : Str} (s : StreamerInfo) (n m : Nat) (h : DescribesVector c s) :
    DescribesVector c { s.cloneAt n with id := m } := by
  intro hn x hx
  obtain ⟨x', hx', k, rfl⟩ := mem_cloneElems hx
  obtain ⟨e, v, t, rfl, he⟩ := h hn x' hx'
  exact ⟨{ e with id := k }, v, t, rfl, he⟩

theorem DescribesVector.expected {c : Str} {s : StreamerInfo} (h : DescribesVector c s) :
    DescribesVector c s.expected := by
  intro hn x hx
  obtain ⟨x', hx', rfl⟩ := List.mem_map.1 hx
  obtain ⟨e, v, t, rfl, he⟩ := h hn x' hx'
  exact ⟨e.expected, v, t, rfl, he⟩

/-- The class records made for vectors describe vectors. -/
theorem makeVector_describes {e : Ty} {si : StreamerInfo} (h : makeVectorStreamer e = .ok si) {c : Str} :
    DescribesVector c si := by
  intro hn x hx
  unfold makeVectorStreamer at h
  obtain ⟨c', -, h⟩ := Res.ok_bind.1 h
  split at h
  · cases h
  · cases h
    rw [List.mem_singleton.1 hx]
    exact ⟨_, _, _, rfl, hn⟩

theorem makeVector_describable {e : Ty} {si : StreamerInfo} (h : makeVectorStreamer e = .ok si) :
    si.Describable := by
  unfold makeVectorStreamer at h
  obtain ⟨c, hc, h⟩ := Res.ok_bind.1 h
  cases e <;> dsimp only [Ty.stlContent] at h <;> first
    | (cases h; done)
    | (cases hc; cases h
       refine ⟨by decide, by decide, by decide, ?_, by decide⟩
       intro x hx
       rw [List.mem_singleton.1 hx]
       refine ⟨?_, by decide, by decide, ?_⟩
       · constructor <;> first | decide | exact .inl (by decide)
       · intro h; rcases h with h | h <;> cases h)

/-! ### The accepted objects -/

theorem acceptedPuts_append (env : Env) (f : FileW) (a b : List Op) :
    acceptedPuts env f (a ++ b) =
      acceptedPuts env f a ++ acceptedPuts env (a.foldl (fun f op => (op.run env f).2) f) b := by
  induction a generalizing f with
  | nil => rfl
  | cons o os ih => simp only [List.cons_append, acceptedPuts, ih, List.foldl_cons, List.append_assoc]

theorem Runs.accepted_append {env : Env} {f g : FileW} {a : List Op} (h : Runs env f a g) (b : List Op) :
    acceptedPuts env f (a ++ b) = acceptedPuts env f a ++ acceptedPuts env g b := by
  rw [acceptedPuts_append, ← h.end_eq]

theorem OnlyBaskets.accepted {env : Env} {f : FileW} {ops : List Op} (h : OnlyBaskets ops) :
    acceptedPuts env f ops = [] := by
  induction ops generalizing f with
  | nil => rfl
  | cons o os ih =>
    obtain ⟨bk, rfl⟩ := h o (List.mem_cons_self ..)
    unfold acceptedPuts
    rw [ih fun op hop => h op (List.mem_cons_of_mem _ hop)]
    rfl

theorem registers_accepted {env : Env} {f : FileW} {sis : List StreamerInfo} :
    acceptedPuts env f (sis.map Op.register) = [] := by
  induction sis generalizing f with
  | nil => rfl
  | cons o os ih =>
    rw [List.map_cons]
    unfold acceptedPuts
    rw [ih]
    rfl

/-! ### The session as a sequence of calls -/

section
variable {env : Env} {path tn : Str} {ids : Nat} {before after : List Op} {cb : Nat} {cols : List Column}
  {places : Places} {f0 f1 f2 f f' : FileW}

/-- All the calls. -/
def treeOps (before baskets after : List Op) (tn : Str) (obj : PutObj) (sis : List StreamerInfo) : List Op :=
  before ++ (baskets ++ ([Op.put tn obj] ++ (sis.map Op.register ++ after)))

theorem TreeWritten.stored (hw : TreeWritten env path ids before after tn cb cols places f0 f1 f2 f f')
    (hh : TreeHolds env path before after tn cols places f0 f2 f') :
    Inv path f0 ∧ f0.dir.keys = [] ∧ f0.sinfos = [] ∧
      ∃ t' ops g g' sis, TreeStored env path tn places cols f1 f2 t' ops g g' sis := by
  obtain ⟨rfl, hlim⟩ := create_ok hw.create hw.small.end_
  have hi0 := Inv.created (path := path) (ids := ids) hlim
  have hi1 := runs_inv hi0 hw.before
  obtain ⟨t, t', hb, hwr⟩ := hw.tree
  exact ⟨hi0, rfl, rfl, TreeStored.of_madeOf hi1 (fun c hc => (hh.columns c hc).values) hb hwr hw.small2⟩

variable {t : WTree} {ops : List Op} {g g' : FileW} {sis : List StreamerInfo}

theorem TreeStored.run_put (hs : TreeStored env path tn places cols f1 f2 t ops g g' sis) :
    Runs env g [Op.put tn (t.putObj places)] g' :=
  .snoc (ops := []) .nil (r := .ok ()) hs.put (fun h => by cases h) hs.small

theorem TreeStored.tail (hw : TreeWritten env path ids before after tn cb cols places f0 f1 f2 f f')
    (hs : TreeStored env path tn places cols f1 f2 t ops g g' sis) :
    Runs env g ([Op.put tn (t.putObj places)] ++ (sis.map Op.register ++ after)) f :=
  runs_trans hs.run_put (runs_trans hs.registers hw.after)

theorem TreeStored.written (hw : TreeWritten env path ids before after tn cb cols places f0 f1 f2 f f')
    (hs : TreeStored env path tn places cols f1 f2 t ops g g' sis) :
    Written env path ids (treeOps before ops after tn (t.putObj places) sis) f0 f f' :=
  ⟨hw.create, hw.small, runs_trans hw.before (runs_trans hs.baskets (hs.tail hw)), hw.close⟩

theorem TreeStored.accepted (hw : TreeWritten env path ids before after tn cb cols places f0 f1 f2 f f')
    (hs : TreeStored env path tn places cols f1 f2 t ops g g' sis) :
    acceptedPuts env f0 (treeOps before ops after tn (t.putObj places) sis) =
      acceptedPuts env f0 before ++ (tn, t.putObj places) :: acceptedPuts env f2 after := by
  unfold treeOps
  rw [hw.before.accepted_append, hs.baskets.accepted_append, hs.only.accepted, List.nil_append,
    hs.run_put.accepted_append, hs.registers.accepted_append, registers_accepted, List.nil_append]
  congr 1
  have : (t.putObj places).name = tn := by
    obtain ⟨tot, -, hd⟩ := hs.data
    show t.data.named.name = tn
    rw [hd]; rfl
  show (Op.put tn (t.putObj places)).accepted env g ++ [] ++ _ = _
  unfold Op.accepted
  rw [show (Op.put tn (t.putObj places)).run env g = Verif.put env tn (t.putObj places) g from rfl, hs.put]
  show [(storedName tn (t.putObj places), t.putObj places)] ++ [] ++ _ = _
  have hn : storedName tn (t.putObj places) = tn := by
    unfold storedName
    split
    · next h => rw [this, h]
    · rfl
  rw [hn]
  rfl

theorem TreeStored.holds (hw : TreeWritten env path ids before after tn cb cols places f0 f1 f2 f f')
    (hh : TreeHolds env path before after tn cols places f0 f2 f')
    (hs : TreeStored env path tn places cols f1 f2 t ops g g' sis) :
    Holds env path (treeOps before ops after tn (t.putObj places) sis) f0 f' := by
  refine ⟨hh.process, hh.text, hh.short, ?_, ?_, hh.listBytes, hh.listLength, hh.apart⟩
  · rw [hs.accepted hw]
    intro p hp
    rcases List.mem_append.1 hp with hp | hp
    · exact hh.objects p (List.mem_append_left _ hp)
    · rcases List.mem_cons.1 hp with rfl | hp
      · obtain ⟨tot, -, hd⟩ := hs.data
        have ht : (t.putObj places).title = [] := by
          show t.data.named.title = []
          rw [hd]; rfl
        have := hh.treeShort
        refine ⟨hh.treeText, by rw [ht]; rfl, rfl, ?_⟩
        rw [ht]
        show tn.length + 0 + 5 ≤ 32700
        omega
      · exact hh.objects p (List.mem_append_right _ hp)
  · intro op hop
    unfold treeOps at hop
    simp only [List.mem_append, List.mem_map, List.mem_singleton] at hop
    rcases hop with h | h | h | ⟨si, h, rfl⟩ | h
    · exact hh.records op (List.mem_append_left _ h)
    · obtain ⟨bk, rfl⟩ := hs.only op h
      trivial
    · subst h; trivial
    · obtain ⟨c, -, e, -, hm⟩ := hs.infos si h
      exact makeVector_describable hm
    · exact hh.records op (List.mem_append_right _ h)

theorem TreeStored.few (hw : TreeWritten env path ids before after tn cb cols places f0 f1 f2 f f')
    (hh : TreeHolds env path before after tn cols places f0 f2 f')
    (hs : TreeStored env path tn places cols f1 f2 t ops g g' sis) :
    FewPerName (acceptedPuts env f0 (treeOps before ops after tn (t.putObj places) sis)) := by
  intro name
  have h := hh.fewPuts name
  rw [hs.accepted hw]
  unfold treeNames at h
  refine Nat.le_trans (Nat.le_of_eq ?_) h
  have e : (acceptedPuts env f0 before).map Prod.fst ++ tn :: (acceptedPuts env f2 after).map Prod.fst =
      (acceptedPuts env f0 before ++ (tn, t.putObj places) :: acceptedPuts env f2 after).map Prod.fst := by
    simp
  rw [e, List.count, List.countP_map]
  refine List.countP_congr fun p _ => ?_
  simp

/-- The class records of the closed file, for a column of vectors. -/
theorem TreeStored.vectors (hw : TreeWritten env path ids before after tn cb cols places f0 f1 f2 f f')
    (hh : TreeHolds env path before after tn cols places f0 f2 f') (hi0 : Inv path f0) (h0 : f0.sinfos = [])
    (hs : TreeStored env path tn places cols f1 f2 t ops g g' sis) {c : Column} (hc : c ∈ cols) {e : Ty}
    (he : c.ty = .vec e) {cn : Str} (hcn : c.ty.wrClassName = .ok cn) :
    VectorRecords cn (f'.sinfos.map StreamerInfo.expected).reverse := by
  have hwr := hs.written hw
  have h1 : ∀ x ∈ f.sinfos, DescribesVector cn x := by
    refine runs_all (fun s n m h => h.clone s n m) (hh.dictionary c hc e he cn hcn) (fun si hsi => ?_) hi0 hwr.runs
      (by rw [h0]; intro x hx; cases hx)
    unfold treeOps at hsi
    simp only [List.mem_append, List.mem_map, List.mem_singleton] at hsi
    rcases hsi with h | h | h | ⟨si', h, hsi⟩ | h
    · exact hh.announced c hc e he cn hcn si (List.mem_append_left _ h)
    · obtain ⟨bk, h⟩ := hs.only _ h
      cases h
    · cases h
    · cases hsi
      obtain ⟨c', -, e', -, hm⟩ := hs.infos si h
      exact makeVector_describes hm
    · exact hh.announced c hc e he cn hcn si (List.mem_append_right _ h)
  have hi := runs_inv hi0 hwr.runs
  obtain ⟨s, i, buf, hcl⟩ := hi.close hw.close
  have es : f'.sinfos = s := by rw [hcl.file]; rfl
  have h2 : ∀ x ∈ s, DescribesVector cn x :=
    findDeep_all (fun s n m h => h.clone s n m) (hh.dictionary c hc e he cn hcn) hcl.deps h1
  intro si hsi hn
  rw [es] at hsi
  obtain ⟨si', hsi', rfl⟩ := List.mem_map.1 (List.mem_reverse.1 hsi)
  exact (h2 si' hsi').expected hn

end

end Verif
