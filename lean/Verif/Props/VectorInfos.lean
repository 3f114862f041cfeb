import Verif.Spec.VectorInfos
import Verif.Props.Total
/-
C49, columns of vectors: the file says what they are vectors of.
-/
namespace Verif

theorem makeVector_class {e : Ty} {si : StreamerInfo} (h : makeVectorStreamer e = .ok si) :
    ∃ name content, vectorOf e = some (name, content) ∧ si.IsVector name content := by
  have hc : e.stlContent ≠ none := by
    intro hn
    unfold makeVectorStreamer at h
    obtain ⟨c, -, h⟩ := Res.ok_bind.1 h
    rw [hn] at h
    cases h
  cases e <;> first
    | exact absurd rfl hc
    | (cases h
       exact ⟨_, _, rfl, rfl, _, _, rfl, rfl, rfl, rfl⟩)

/-- The class of a vector determines the type of its items. -/
theorem vectorOf_inj {e e' : Ty} {n : Str} {k k' : Int} (h : vectorOf e = some (n, k))
    (h' : vectorOf e' = some (n, k')) : k = k' := by
  have key : ∀ {e : Ty} {k : Int}, vectorOf e = some (n, k) →
      (vectorItems.filterMap vectorOf).lookup n = some k := by
    intro e k h
    cases e <;> cases h <;> rfl
  exact Option.some.inj ((key h).symm.trans (key h'))

section
attribute [local irreducible] bundledList bundledRecords bundledDb allRecords treeRecords tTreeRecord vectorRecords

/-- A class record, if it has the name of a vector, is that of this vector. -/
def VectorOrNot (s : StreamerInfo) : Prop := ∀ e name content, vectorOf e = some (name, content) →
  s.name = name → s.IsVector name content

theorem VectorOrNot.clone (s : StreamerInfo) (n m : Nat) (h : VectorOrNot s) :
    VectorOrNot { s.cloneAt n with id := m } := by
  intro e name content he hn
  obtain ⟨-, el, ct, h1, h2, h3, h4⟩ := h e name content he hn
  refine ⟨hn, { el with id := n }, ct, ?_, h2, h3, h4⟩
  show cloneElems n s.elems = _
  rw [h1]
  rfl

theorem IsVector.expected {s : StreamerInfo} {name : Str} {content : Int} (h : s.IsVector name content) :
    s.expected.IsVector name content := by
  obtain ⟨hn, el, ct, h1, h2, h3, h4⟩ := h
  refine ⟨hn, el.expected, ct, ?_, h2, h3, h4⟩
  show s.elems.map Streamer.expected = _
  rw [h1]
  rfl

theorem bundled_vectorOrNot {n : Str} {v : Int} {s : StreamerInfo} (h : bundledDb n v = some s) : VectorOrNot s := by
  intro e name content he hn
  have h1 := List.all_eq_true.1 bundled_noVectors s (bundledDb_mem h)
  have hmem : e ∈ vectorItems := by cases e <;> first | (cases he; done) | decide
  have hcn : (Ty.vec e).wrClassName = .ok name := by cases e <;> cases he <;> rfl
  have h2 := List.all_eq_true.1 h1 e hmem
  rw [hcn] at h2
  exact absurd (show s.named.name = name from hn) (by simpa using h2)

theorem registered_listed {env : Env} {path : Str} {ops : List Op} {f0 f : FileW} (hi : Inv path f0)
    (hn : ∀ n v s, env.db n v = some s → s.name = n) (h : Runs env f0 ops f) :
    ∀ si, Op.register si ∈ ops → ∃ s ∈ f.sinfos, s.name = si.name := by
  induction h with
  | nil => intro p hp; cases hp
  | @snoc ops g op r g' h1 h2 h3 h4 ih =>
    obtain ⟨-, a2⟩ := step_described (runs_inv hi h1) hn h2 h3 h4
    intro si hsi
    rcases List.mem_append.1 hsi with hsi | hsi
    · exact a2 _ (ih si hsi)
    · cases List.mem_singleton.1 hsi
      simp only [Op.run] at h2
      rw [registerInfo_eq] at h2
      cases h2
      exact addInfo_name (.inr rfl)

theorem addDeps_keeps {env : Env} {ds : List (Str × Int)} {f f' : FileW} {u : Unit}
    (h : addDeps env ds f = (.ok u, f')) {n : Str} (hi : ∃ x ∈ f.sinfos, x.name = n) :
    ∃ x ∈ f'.sinfos, x.name = n := by
  induction ds generalizing f with
  | nil =>
    obtain ⟨-, rfl⟩ := Fs.ok_pure.1 h
    exact hi
  | cons d ds ih =>
    unfold addDeps at h
    split at h
    · exact ih h hi
    · obtain ⟨si, f1, h0, h1⟩ := Fs.ok_bind.1 h
      obtain ⟨m, hl, rfl⟩ := Fs.dictionary_ok h0
      rw [Fs.bind_of_ok (addStreamerInfo_eq _ _)] at h1
      exact ih h1 (addInfo_name (.inl hi))

theorem findDeep_keeps {env : Env} {f f' : FileW} {u : Unit} (h : findDeepStreamer env f = (.ok u, f')) :
    ∀ s ∈ f.sinfos, ∃ s' ∈ f'.sinfos, s'.name = s.name := by
  intro s hs
  unfold findDeepStreamer at h
  rw [Fs.bind_of_ok (Fs.ok_get.2 ⟨rfl, rfl⟩)] at h
  obtain ⟨⟨ds, n⟩, _, h0, h1⟩ := Fs.ok_bind.1 h
  obtain ⟨hv, rfl⟩ := Fs.ok_lift.1 h0
  obtain ⟨_, _, h2, h3⟩ := Fs.ok_bind.1 h1
  obtain rfl := Fs.ok_modify.1 h2
  exact addDeps_keeps h3 ⟨s, hs, rfl⟩

variable {addr : Nat → Nat} {path tn : Str} {ids : Nat} {before after : List Op} {cb : Nat} {cols : List Column}
  {places : Places} {f0 f1 f2 f f' : FileW}

/-- The records of a file that announces vectors. -/
theorem announced_vectors {ops : List Op} (hw : Written (bundledEnv addr) path ids ops f0 f f')
    (hh : Holds (bundledEnv addr) path ops f0 f') (hv : OnlyVectors ops) (dec : Decoders) (fuel : Nat)
    (hfuel : 3 ≤ fuel) : ∃ r, openFile dec fuel (image f'.trace) = .ok r ∧
      ∀ e si, makeVectorStreamer e = .ok si → Op.register si ∈ ops →
        ∃ name content, vectorOf e = some (name, content) ∧ (∃ s ∈ r.sinfos, s.name = name) ∧
          ∀ s ∈ r.sinfos, s.name = name → s.IsVector name content := by
  obtain ⟨hi0, hk0, hi, hfit, s, i, buf, hc, hko, es, ei, hop⟩ := hw.opened hh
  refine ⟨_, hop dec fuel hfuel, fun e si hsi hreg => ?_⟩
  obtain ⟨rs, hrs, -⟩ := C48_table
  have hn : ∀ n v s, (bundledEnv addr).db n v = some s → s.name = n := by
    intro n v s h
    rw [bundledEnv_db] at h
    exact ((C48_found n v s hrs).1 h).2.1
  have hdb : ∀ n v s, (bundledEnv addr).db n v = some s → VectorOrNot s := by
    intro n v s h
    rw [bundledEnv_db] at h
    exact bundled_vectorOrNot h
  have h0 : f0.sinfos = [] := by
    obtain ⟨rfl, -⟩ := create_ok hw.create hw.small.end_
    rfl
  have hf : ∀ s ∈ f.sinfos, VectorOrNot s := by
    refine runs_all VectorOrNot.clone hdb ?_ hi0 hw.runs (by rw [h0]; intro x hx; cases hx)
    intro si hsi e name content he hnm
    obtain ⟨t, ht⟩ := hv si hsi
    obtain ⟨name', content', h1, h2⟩ := makeVector_class ht
    cases h2.1.symm.trans hnm
    rw [vectorOf_inj he h1]
    exact h2
  have hs : ∀ x ∈ s, VectorOrNot x := findDeep_all VectorOrNot.clone hdb hc.deps hf
  obtain ⟨name, content, h1, h2⟩ := makeVector_class hsi
  refine ⟨name, content, h1, ?_, ?_⟩
  · obtain ⟨x, hx, hxn⟩ := registered_listed hi0 hn hw.runs si hreg
    obtain ⟨y, hy, e⟩ := findDeep_keeps hc.deps x hx
    refine ⟨y.expected, List.mem_reverse.2 (List.mem_map.2 ⟨y, by rw [es]; exact hy, rfl⟩), ?_⟩
    exact (e.trans hxn).trans h2.1
  · intro x hx hxn
    obtain ⟨y, hy, rfl⟩ := List.mem_map.1 (List.mem_reverse.1 hx)
    rw [es] at hy
    exact IsVector.expected (hs y hy e name content h1 hxn)

/-- C49, columns of vectors: the reopened file has a class record for the class of every column of vectors,
with this class as its only member and the type of the items of the vectors. -/
theorem C49_vectors (hw : TreeWritten (bundledEnv addr) path ids before after tn cb cols places f0 f1 f2 f f')
    (hh : TreeHolds (bundledEnv addr) path before after tn cols places f0 f2 f') (hv : OnlyVectors (before ++ after))
    (dec : Decoders) (fuel : Nat) (hfuel : 3 ≤ fuel) : ∃ r, openFile dec fuel (image f'.trace) = .ok r ∧
      ∀ c ∈ cols, ∀ e, c.ty = .vec e → ∃ name content, vectorOf e = some (name, content) ∧
        (∃ s ∈ r.sinfos, s.name = name) ∧ ∀ s ∈ r.sinfos, s.name = name → s.IsVector name content := by
  obtain ⟨hi0, -, h0, t, ops, g, g', sis, hs⟩ := hw.stored hh
  obtain ⟨r, ho, h⟩ := announced_vectors (hs.written hw) (hs.holds hw hh) (by
    intro si hsi
    unfold treeOps at hsi
    simp only [List.mem_append, List.mem_map, List.mem_singleton] at hsi
    rcases hsi with h | h | h | ⟨si', h, hsi⟩ | h
    · exact hv si (List.mem_append_left _ h)
    · obtain ⟨bk, h⟩ := hs.only _ h
      cases h
    · cases h
    · cases hsi
      obtain ⟨c', -, e', -, hm⟩ := hs.infos si h
      exact ⟨e', hm⟩
    · exact hv si (List.mem_append_right _ h)) dec fuel hfuel
  refine ⟨r, ho, fun c hc e he => ?_⟩
  obtain ⟨si, hsi, hm⟩ := hs.listed c hc e he
  refine h e si hm ?_
  unfold treeOps
  simp only [List.mem_append, List.mem_map]
  exact .inr (.inr (.inr (.inl ⟨si, hsi, rfl⟩)))

/-- The same for a program that creates a file, writes trees to it and closes it (as in C50). -/
theorem C49_written {ts : List TreeIn} (ha : ∀ i j, addr i = addr j → i = j) (hmem : ∀ j, ids + 20000000 ≤ addr j)
    (htext : utf8 path = true) (hpath : path.length ≤ 478) (hs : Storables ts) (dec : Decoders) (fuel : Nat)
    (hfuel : 3 ≤ fuel) :
    ∃ f' r, writeFile (bundledEnv addr) ts (FileW.initial path ids) = (.ok (), f') ∧
      openFile dec fuel (image f'.trace) = .ok r ∧
      ∀ t ∈ ts, ∀ c ∈ t.cols, ∀ e, c.ty = .vec e → ∃ name content, vectorOf e = some (name, content) ∧
        (∃ s ∈ r.sinfos, s.name = name) ∧ ∀ s ∈ r.sinfos, s.name = name → s.IsVector name content := by
  obtain ⟨f0, f, f', hw, ho, -, hts⟩ := writeFile_session ha hmem htext hpath hs
  obtain ⟨r, hr, -⟩ := ho dec fuel hfuel
  refine ⟨f', r, hw, hr, fun t ht => ?_⟩
  obtain ⟨before, after, f1, f2, htw, hth, hv⟩ := hts t ht
  obtain ⟨r', hr', h⟩ := C49_vectors htw hth hv dec fuel hfuel
  cases hr.symm.trans hr'
  exact h

end

/-- The file of three trees says what the vectors of the first one are. -/
example (dec : Decoders) : ∃ f' r, writeFile (bundledEnv fun i => 100000000 + i) demoTrees
      (FileW.initial (b! "x.root") 10) = (.ok (), f') ∧ openFile dec 3 (image f'.trace) = .ok r ∧
    ∃ s ∈ r.sinfos, s.IsVector (b! "vector<double>") 8 := by
  obtain ⟨f', r, h1, h2, h3⟩ := C49_written (addr := fun i => 100000000 + i) (path := b! "x.root") (ids := 10)
    (fun i j h => Nat.add_left_cancel h) (fun j => by omega) (by decide) (by decide) demoTrees_storable dec 3 (by decide)
  obtain ⟨n, k, h4, ⟨s, hs, hn⟩, h5⟩ := h3 _ (.head _) ⟨.vec .f64, b! "v", [[1, 2]]⟩ (by simp [demoCols]) .f64 rfl
  cases h4
  exact ⟨f', r, h1, h2, s, hs, h5 s hs hn⟩

end Verif
