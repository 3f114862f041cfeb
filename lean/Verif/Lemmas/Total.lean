import Verif.Lemmas.TotalTree
import Verif.Lemmas.EntryWidth
/-
Writing a file of trees succeeds while there is room.
-/
namespace Verif

/-- The entries of a column of numbers or arrays have the same length. -/
theorem Column.Short.even {c : Column} (h : c.Short) (hv : c.ty.varies = false) :
    ∃ w, (∀ v ∈ c.vals, (entryBytes c.ty v).length = w) ∧ (c.vals ≠ [] → c.vals.length < 32767 * perBasket w) := by
  obtain ⟨b, sis, hn⟩ := WBranch.new_runs h.supported c.name [] 0
  obtain ⟨l, hl⟩ : ∃ l, Leaf.new c.ty c.name = .ok l := by
    unfold WBranch.new at hn
    obtain ⟨l, hl, -⟩ := Res.ok_bind.1 hn
    exact ⟨l, hl⟩
  obtain ⟨w, hw⟩ := entry_width hl hv
  refine ⟨w, fun v hm => hw v (h.values v hm), fun hne => ?_⟩
  obtain ⟨v, hm⟩ := List.exists_mem_of_ne_nil _ hne
  rw [← hw v (h.values v hm)]
  exact h.few hv v hm

theorem Column.Short.fits {c : Column} {tn : Str} (h : c.Short) (ht : tn.length ≤ 1000)
    (hb : c.ty.varies = true → c.bytes ≤ 1000000000) (n : Nat) : c.Fits tn n := by
  refine ⟨⟨h.values, h.entries, fun hv => ?_, fun hv => ?_⟩, ?_⟩
  · have := hb hv
    rwa [← Column.bytesFrom_zero, Column.bytesFrom, List.drop_zero] at this
  · obtain ⟨w, h1, h2⟩ := h.even hv
    refine ⟨w, h1, ?_⟩
    have := perBasket_pos w
    by_cases hne : c.vals = []
    · rw [hne, List.length_nil]
      omega
    · have := h2 hne
      omega
  have := kl_le_small c.name tn (b! "TBasket")
  have e : (b! "TBasket").length = 7 := rfl
  have := h.name
  show kl c.name tn (b! "TBasket") ≤ _
  omega

/-- The room for the columns. -/
theorem cost_le (cols : List Column) :
    (cols.map fun c => c.load (c.bytesFrom 0)).sum + 16 * (cols.map fun c => c.bytes / 500 + 7100).sum +
      16 * 6000 * cols.length ≤ 16 * (cols.map Column.cost).sum ∧
    19 * (cols.map fun c => c.bytes / 500 + 7100).sum ≤ 10 * (cols.map Column.cost).sum := by
  induction cols with
  | nil => exact ⟨Nat.le_refl _, Nat.le_refl _⟩
  | cons c cols ih =>
    simp only [List.map_cons, List.sum_cons, List.length_cons]
    rw [Column.bytesFrom_zero]
    unfold Column.load Column.cost at *
    split <;> omega

theorem Column.bytes_cost (c : Column) : 5 * c.bytes ≤ 4 * c.cost ∧ (c.ty.varies = true → 6 * c.bytes ≤ c.cost) := by
  unfold Column.cost
  split
  · exact ⟨by omega, fun _ => by omega⟩
  · next h => exact ⟨by omega, fun h' => absurd h' h⟩

theorem Column.Short.arrays {c : Column} (h : c.Short) : ∀ n e, c.ty = .arr n e → n < 2 ^ 31 := by
  intro n e he
  have := h.supported
  rw [he] at this
  simp only [Ty.isSupported, Bool.and_eq_true, decide_eq_true_eq] at this
  exact this.1.2

theorem Column.Short.holds {c : Column} {tn : Str} (h : c.Short) (ht : tn.length ≤ 1000) : c.Holds tn := by
  refine ⟨h.text, ?_, h.values, ?_, h.arrays⟩
  · have := h.name; omega
  · intro e he v hv
    have := h.entries v hv
    rw [if_pos (by rw [he]; rfl)] at this
    omega

/-- The baskets leave the rest of the file alone. -/
theorem OnlyBaskets.same {env : Env} {path : Str} {ops : List Op} {f f' : FileW} (hi : Inv path f)
    (h : Runs env f ops f') (ho : OnlyBaskets ops) : f'.sinfos = f.sinfos ∧ f'.ids = f.ids ∧ f'.dir = f.dir := by
  induction h with
  | nil => exact ⟨rfl, rfl, rfl⟩
  | @snoc ops g op r g' h1 h2 h3 h4 ih =>
    obtain ⟨a, b, c⟩ := ih fun x hx => ho x (List.mem_append_left _ hx)
    obtain ⟨bk, rfl⟩ := ho op (by simp)
    have hi' := runs_inv hi h1
    simp only [Op.run] at h2
    generalize hw : bk.writeToFile g = x at h2
    obtain ⟨(e | e) | ⟨b', n, m⟩, f1⟩ := x
    · exact absurd hw (WBasket.writeToFile_err hi'.good)
    · cases h2; exact absurd rfl h3
    · cases h2
      obtain ⟨-, w, -, -, ht, -⟩ := basket_inv hi' hw h4
      rw [ht]
      exact ⟨a, b, c⟩

theorem entries_nonempty {c : Column} {b0 : Branch} {l0 : Leaf} {env : Env} {tn : Str} {n : Nat} {b : WBranch} {f : FileW}
    {path : Str} {done : List Done} {cur : List (List Byte)} (h : ColumnState env tn c n b f path b0 l0 done cur)
    (hok : ∀ v ∈ c.vals, c.ty.Ok v) : c.vals.length ≤ c.bytes := by
  have hne : ∀ v ∈ c.vals, 1 ≤ (entryBytes c.ty v).length := by
    intro v hv
    obtain ⟨h1, -⟩ := h.entry v (hok v hv)
    have : 1 ≤ (marshalled c.ty v).length := by
      cases hm : marshalled c.ty v with
      | nil => exact absurd hm h1
      | cons => simp
    obtain ⟨ty, nm, vs⟩ := c
    dsimp only at *
    cases ty <;> first
      | exact this
      | (simp only [entryBytes, List.length_append, beBytes_length]; omega)
  unfold Column.bytes
  generalize c.vals = l at hne
  induction l with
  | nil => exact Nat.zero_le _
  | cons v l ih =>
    have h1 := hne v (List.mem_cons_self ..)
    have h2 := ih fun v hv => hne v (List.mem_cons_of_mem _ hv)
    simp only [List.map_cons, List.sum_cons, List.length_cons]
    omega

theorem sum_mono {α} {l : List α} {q r : α → Nat} (h : ∀ x ∈ l, q x ≤ r x) : (l.map q).sum ≤ (l.map r).sum := by
  induction l with
  | nil => exact Nat.le_refl _
  | cons x l ih =>
    have h1 := h x (List.mem_cons_self ..)
    have h2 := ih fun x hx => h x (List.mem_cons_of_mem _ hx)
    simp only [List.map_cons, List.sum_cons]
    omega

theorem mem_le_sum {α} {l : List α} {q : α → Nat} {x : α} (h : x ∈ l) : q x ≤ (l.map q).sum := by
  induction l with
  | nil => cases h
  | cons y l ih =>
    simp only [List.map_cons, List.sum_cons]
    rcases List.mem_cons.1 h with rfl | h
    · omega
    · have := ih h; omega

theorem sum_affine {α} (l : List α) (q : α → Nat) (a b : Nat) :
    (l.map fun x => a * q x + b).sum = a * (l.map q).sum + b * l.length := by
  induction l with
  | nil => simp
  | cons x l ih =>
    simp only [List.map_cons, List.sum_cons, List.length_cons, ih, Nat.mul_add]
    omega

/-- A file of trees, before the next tree is written. -/
structure Ready (path : Str) (names : List Str) (ids : Nat) (f : FileW) : Prop where
  inv : Inv path f
  below : f.Below2GB
  infos : InfosOf treeRecords f.sinfos
  ids : f.ids ≤ ids
  keys : ∀ k ∈ f.dir.keys, k.name ∈ names ∧ k.nBytes < 2 ^ 30
  lens : keysLen f.dir ≤ 4 + 1200 * names.length

theorem lastCycle_new {name cls : Str} {ks : List Key} (h : ∀ k ∈ ks, k.name ≠ name) (c : Int) :
    lastCycle name cls ks c = some c := by
  induction ks with
  | nil => rfl
  | cons k ks ih =>
    unfold lastCycle
    rw [if_pos (h k (List.mem_cons_self ..))]
    exact ih fun k hk => h k (List.mem_cons_of_mem _ hk)

theorem registerAll_infos : ∀ {sis : List StreamerInfo} {f : FileW}, (∀ si ∈ sis, si ∈ vectorRecords) →
    InfosOf treeRecords f.sinfos →
    ∃ f', registerAll sis f = (.ok (), f') ∧ InfosOf treeRecords f'.sinfos ∧
      f' = { f with sinfos := f'.sinfos, ids := f'.ids } ∧ f'.ids ≤ f.ids + 2 * sis.length
  | [], f, _, h => ⟨f, rfl, h, rfl, Nat.le_refl _⟩
  | si :: sis, f, hs, h => by
    have hm := hs si (List.mem_cons_self ..)
    obtain ⟨f', h1, h2, h3, h4⟩ := registerAll_infos (sis := sis)
      (f := { f with sinfos := addInfo f.sinfos (si.cloneAt f.ids), ids := f.ids + si.elems.length + 1 })
      (fun s hx => hs s (List.mem_cons_of_mem _ hx)) (h.add (treeRecords_vector hm) (.cloneAt _))
    refine ⟨f', ?_, h2, ?_, ?_⟩
    · unfold registerAll
      rw [Fs.bind_of_ok (registerInfo_eq si f)]
      exact h1
    · rw [h3]
    · have := vectorRecords_one hm
      dsimp only at h4
      rw [List.length_cons]
      omega

theorem WBranch.new_few {t : Ty} {name : Str} {items : List (Option (Wr Nat))} {io : Nat} {b : WBranch}
    {sis : List StreamerInfo} (h : WBranch.new t name items io = .ok (b, sis)) : sis.length ≤ 1 := by
  obtain ⟨_, -, -, h1, h2⟩ := WBranch.new_made h
  by_cases hv : ∃ e, t = .vec e
  · obtain ⟨e, he⟩ := hv
    obtain ⟨-, si, -, rfl⟩ := h1 e he
    exact Nat.le_refl _
  · rw [h2 fun e he => hv ⟨e, he⟩]
    exact Nat.zero_le _

theorem build_few {cols : List Column} {t t' : WTree} {l : List StreamerInfo} (hs : t.sinfos = some l)
    (h : cols.foldlM (fun t c => t.newBranch c.ty c.name (c.vals.map some)) t = .ok t') :
    ∃ l', t'.sinfos = some l' ∧ l'.length ≤ l.length + cols.length := by
  induction cols generalizing t l with
  | nil => cases h; exact ⟨l, hs, Nat.le_refl _⟩
  | cons c cols ih =>
    rw [List.foldlM_cons] at h
    obtain ⟨t1, h0, h⟩ := Res.ok_bind.1 h
    obtain ⟨b, sis, h1, h2, h3⟩ := WTree.pushBranch_ok h0
    have hl := WBranch.new_few h1
    obtain ⟨l', h4, h5⟩ := ih (t := t1) (l := l ++ sis) (by rw [h3 (by rw [hs]; rfl), hs]; rfl) h
    refine ⟨l', h4, ?_⟩
    rw [List.length_append] at h5
    rw [List.length_cons]
    omega

section
variable {addr : Nat → Nat} {path : Str} {names : List Str} {ids : Nat}

attribute [local irreducible] bundledList bundledRecords bundledDb allRecords treeRecords tTreeRecord vectorRecords

/-- The class of trees is announced. -/
theorem tree_announced {t : WTree} {places : Places} {f : FileW} (hr : InfosOf treeRecords f.sinfos) :
    ∃ f1, Announced (bundledEnv addr) (t.putObj places) f f1 ∧ InfosOf treeRecords f1.sinfos ∧ f1.ids ≤ f.ids + 42 := by
  have hl : (bundledEnv addr).lookup (t.putObj places).cls (t.putObj places).vers f.ids =
      .ok ({ tTreeRecord.cloneAt f.ids with id := f.ids + tTreeRecord.elems.length + 1 },
        f.ids + tTreeRecord.elems.length + 2) := by
    unfold Env.lookup
    rw [show (bundledEnv addr).db (t.putObj places).cls (t.putObj places).vers = some tTreeRecord from
      treeRecords_cost.1]
  have := List.all_eq_true.1 allRecords_short.1 tTreeRecord (treeRecords_known treeRecords_tree)
  simp only [Bool.and_eq_true, decide_eq_true_eq] at this
  refine ⟨_, .found (show b! "TTree" ∉ coreTypes by decide) hl, ?_, ?_⟩
  · exact hr.add treeRecords_tree (.clone _ _)
  · dsimp only
    omega

theorem announced_same {obj : PutObj} {f f1 f2 : FileW} (h1 : Announced (bundledEnv addr) obj f f1)
    (h2 : Announced (bundledEnv addr) obj f f2) : f1 = f2 := by
  cases h1 with
  | core c1 => cases h2 with
    | core => rfl
    | found c2 => exact absurd c1 c2
  | found c1 l1 => cases h2 with
    | core c2 => exact absurd c2 c1
    | found c2 l2 =>
      rw [l1] at l2
      cases l2
      rfl

theorem column_length {t : TreeIn} (ht : t.Ok) {f : FileW} (hi : Inv path f) {c : Column} (hc : c ∈ t.cols) :
    c.vals.length ≤ c.bytes := by
  obtain ⟨w, -, hnewb⟩ := buildTree_runs (tn := t.name) (cb := t.callbacks)
    fun c hc => (ht.columns c hc).supported
  obtain ⟨i, hic, rfl⟩ := List.getElem_of_mem hc
  have hil : i < w.branches.length := by rw [← hnewb.length]; exact hic
  have hn := hnewb.get (List.getElem?_eq_getElem hic) (List.getElem?_eq_getElem hil)
  obtain ⟨b0, l0, d, cu, -, h⟩ := (hn.atRoom (env := bundledEnv id) (tn := t.name) hi).1
  exact entries_nonempty h.state (ht.columns _ hc).values

theorem tree_runs {t : TreeIn} (ht : t.Ok) {f : FileW} (hr : Ready path names ids f) (hnew : t.name ∉ names)
    (hroom : f.header.end_ + t.cost + 100000 ≤ 2000000000) :
    ∃ w w' f', buildTree t.name t.callbacks t.cols = .ok w ∧
      w.write (bundledEnv addr) t.places f = (.ok w', f') ∧
      Ready path (names ++ [t.name]) (ids + 42 + 2 * t.cols.length) f' ∧
      f'.header.end_ + 1200 ≤ f.header.end_ + t.cost := by
  have hi := hr.inv
  have hlo := hi.lo
  have hdp := dirPos_ge path
  have hshort := ht.short
  have hcost : t.cost = (t.cols.map Column.cost).sum + 6000 := rfl
  obtain ⟨hsums, hsums'⟩ := cost_le t.cols
  have hbytes : ∀ c ∈ t.cols, c.bytes ≤ 1600000000 ∧ (c.ty.varies = true → c.bytes ≤ 1000000000) := by
    intro c hc
    have := mem_le_sum (q := Column.cost) hc
    obtain ⟨h1, h2⟩ := c.bytes_cost
    exact ⟨by omega, fun hv => by have := h2 hv; omega⟩
  have hfit : ∀ c ∈ t.cols, ∀ n, c.Fits t.name n := fun c hc => (ht.columns c hc).fits hshort (hbytes c hc).2
  -- the tree is made
  obtain ⟨w, hb, hnewb⟩ := buildTree_runs (tn := t.name) (cb := t.callbacks)
    fun c hc => (ht.columns c hc).supported
  obtain ⟨hfed, hw0⟩ := buildTree_fed hb
  obtain ⟨-, sis, hsis, hv, -⟩ := buildTree_state (env := bundledEnv addr) hi hb
  obtain ⟨sis', hsis', hfew⟩ := build_few (l := []) rfl hb
  rw [hsis] at hsis'
  cases hsis'
  have hname : w.data.named.name = t.name := by rw [hw0]; rfl
  have hpend : ∀ b ∈ w.branches, b.pending = 0 := by
    intro b hbm
    obtain ⟨c, -, hn⟩ := hnewb.mem_right hbm
    exact (hn.atRoom (env := bundledEnv addr) (tn := t.name) hi).2
  have hahead := ahead_new hnewb hpend
  have hroom0 : All2 (AtRoom (bundledEnv addr) w.data.named.name path f 0) t.cols w.branches :=
    hnewb.imp fun c b h => (h.atRoom hi).1
  have hstate : All2 (AtRound (bundledEnv addr) w.data.named.name path f 0) t.cols w.branches :=
    hroom0.imp fun c b ⟨b0, l0, d, cu, hm, h⟩ => ⟨b0, l0, d, cu, hm, h.state⟩
  -- the rounds
  obtain ⟨t1, g1, h1, hb1, hi1, hst1, hn1, hend1⟩ := writeRounds_runs (env := bundledEnv addr) (fuel := w.left + 1) (k := 0)
    (t := w) (by rw [hname]; exact hfit) hi hr.below hfed hroom0 (Nat.zero_le _)
    (by have := longest_left hfed; omega) (by rw [hahead]; omega) (by omega)
  rw [hahead] at hend1
  have hok : ∀ c ∈ t.cols, ∀ v ∈ c.vals, c.ty.Ok v := fun c hc => (ht.columns c hc).values
  obtain ⟨-, ⟨ops1, hr1, ho1⟩, -, hsame, tot, htot, hdata⟩ := writeRounds_state hok hi hfed hstate (Nat.zero_le _) h1 hb1.data
  obtain ⟨-, hent, -⟩ := writeRounds_fed (k := 0) hfed (Nat.zero_le _) (by rw [hw0]; rfl) h1
  have hd : t1.data = { (WTree.new t.name).data with totBytes := tot, entries := longest t.cols } := by
    rw [hdata, hent, hw0]
    show ({ (WTree.new t.name).data with totBytes := 0 + tot, entries := longest t.cols } : TreeData) = _
    rw [Int.zero_add]
  rw [hname] at hst1
  -- the last flush
  obtain ⟨bs, g2, h2, hb2, hi2, ht2, hdone, hend2⟩ := flushAll_runs (k := longest t.cols + 1) (fun c hc => hfit c hc _) hi1 hb1
    (fun c hc => Nat.le_succ_of_le (longest_le.1 (Nat.le_refl _) c hc)) hst1 hn1 (by omega)
  obtain ⟨-, ⟨ops2, hr2, ho2⟩, -⟩ := flushAll_state (env := bundledEnv addr) hi1 (k := longest t.cols + 1)
    (fun c hc => Nat.le_succ_of_le (longest_le.1 (Nat.le_refl _) c hc))
    (hst1.imp fun c b ⟨b0, l0, d, cu, hm, h⟩ => ⟨b0, l0, d, cu, hm, h.state⟩) h2 hb2.data
  obtain ⟨s1, s2, s3⟩ := (ho1.append ho2).same hi (runs_trans hr1 hr2)
  have hlong : longest t.cols < 2 ^ 31 := by
    have : longest t.cols ≤ 1600000000 := by
      refine longest_le.2 fun c hc => ?_
      exact Nat.le_trans (column_length ht hi hc) (hbytes _ hc).1
    omega
  -- the record of the tree
  have hdoneAt : All2 (DoneAt t.name path g2) t.cols bs :=
    hdone.imp fun c b ⟨b0, l0, d, hm, h, _⟩ => ⟨b0, l0, d, hm, h⟩
  have hplaced := placed_of (places := t.places) hdoneAt (fun c hc => (ht.columns c hc).holds hshort) (by omega) hlong
    ht.memory ht.distinct
  have hstor : t1.data.Storable := data_storable (tot := tot) (by simpa using htot.1) hd hlong (by omega) ht.text
  have hn1' : t1.data.named.name = t.name := by rw [hd]; rfl
  have ht1' : t1.data.named.title = [] := by rw [hd]; rfl
  obtain ⟨hcap, hwb⟩ := treeCap_le (places := t.places) (i := 0) hdone (fun c hc => (ht.columns c hc).name)
    (fun c hc => (ht.columns c hc).arrays)
  have hputName : putName t.name (({ t1 with branches := bs } : WTree).putObj t.places) = t.name := by
    unfold putName
    split
    · next h => rw [h]; show t1.data.named.name = _; rw [hn1', h]
    · rfl
  have hkl := kl_le_small t.name [] (b! "TTree")
  have hkl0 : 26 ≤ kl t.name [] (b! "TTree") := (keyLenFor_ge _ _ _ false false).1
  have e5 : (b! "TTree").length = 5 := rfl
  rw [e5, List.length_nil] at hkl
  obtain ⟨rec, wb, hm, hp, -⟩ := C32_tree_record t1.data (placeBranches t.places 0 bs) PlacedBranch.written hstor hplaced 0
    (kl t.name [] (b! "TTree")).toNat []
  have hlen := TreeData.adds t1.data (placeBranches t.places 0 bs) hwb _ _ _ hm
  rw [hn1', ht1', show t1.data.clusterRanges = [] by rw [hd]; rfl, show t1.data.clusterSizes = [] by rw [hd]; rfl,
    show (WBuffer.holding (kl t.name [] (b! "TTree")).toNat []).p.length = 0 from rfl] at hlen
  simp only [List.length_nil] at hlen
  have hrec : wb.p.length ≤ (t.cols.map fun c => c.bytes / 500 + 7100).sum + 1500 := by omega
  obtain ⟨fa, hann, hainf, haids⟩ := tree_announced (addr := addr) (t := { t1 with branches := bs }) (places := t.places)
    (f := g2) (by rw [s1]; exact hr.infos)
  have htitle : (({ t1 with branches := bs } : WTree).putObj t.places).title = [] := ht1'
  obtain ⟨g3, h3, hb3, hend3⟩ := put_runs (name := t.name) hi2 hb2 ht.noSlash
    (by
      rw [hputName]
      refine lastCycle_new (fun k hk he => ?_) 0
      rw [s3] at hk
      exact hnew (he ▸ (hr.keys k hk).1))
    hann (by rw [hputName, htitle]; exact hm) (by
      rw [hputName, htitle]
      show _ + (kl t.name [] (b! "TTree") + _) ≤ _
      omega)
  rw [hputName, htitle] at hend3
  have hend3' : g3.header.end_ = g2.header.end_ + (kl t.name [] (b! "TTree") + wb.p.length) := hend3
  obtain ⟨-, c', fa', m', w', -, ha', -, -, -, hg3⟩ := put_ok hi2.good h3
  have := announced_same hann ha'
  subst this
  obtain ⟨hi3, c'', m'', w'', k, -, hm'', hk, hkeys, -, -⟩ := put_inv hi2 h3 hb3
  rw [hputName, htitle] at hm''
  have hww : w'' = wb := by
    have h' : t1.data.marshal (placeBranches t.places 0 bs) (WBuffer.new (kl t.name [] (b! "TTree")).toNat) = .ok (m'', w'') := hm''
    have hm' : t1.data.marshal (placeBranches t.places 0 bs) (WBuffer.new (kl t.name [] (b! "TTree")).toNat) = .ok (_, wb) := hm
    rw [hm'] at h'
    injection h' with h'
    injection h' with _ h'
    exact h'.symm
  subst hww
  -- the class records
  have hinf3 : g3.sinfos = fa.sinfos ∧ g3.ids = fa.ids := by rw [hg3]; exact ⟨rfl, rfl⟩
  obtain ⟨g4, h4, hinf4, hsame4, hids4⟩ := registerAll_infos (sis := sis) (f := g3) (fun si hsi => by
    obtain ⟨_, _, e, _, hmk⟩ := hv si hsi
    exact makeVector_listed hmk) (by rw [hinf3.1]; exact hainf)
  refine ⟨w, { t1 with branches := bs, sinfos := none }, g4, hb, ?_, ?_, ?_⟩
  · unfold WTree.write
    rw [hfed.nothingDone, Fs.bind_of_ok h1]
    unfold WTree.close
    rw [Fs.bind_of_ok h2]
    dsimp only
    rw [hn1', Fs.bind_of_ok h3, hsame, hsis, Fs.bind_of_ok (show Fs.orPanic (some sis) g3 = (.ok sis, g3) from rfl),
      Fs.bind_of_ok h4]
    rfl
  · have hdir : g4.dir = g3.dir := by rw [hsame4]
    have hhdr : g4.header = g3.header := by rw [hsame4]
    have htr : g4.trace = g3.trace := by rw [hsame4]
    refine ⟨hi3.sameBut hsame4, ⟨by rw [hhdr]; exact hb3.end_, by rw [htr]; exact hb3.data⟩, hinf4, ?_, ?_, ?_⟩
    · have := hr.ids
      have hfew' : sis.length ≤ t.cols.length := by simpa using hfew
      rw [hinf3.2] at hids4
      rw [s2] at haids
      omega
    · intro x hx
      rw [hdir, hkeys, s3] at hx
      rcases List.mem_append.1 hx with hx | hx
      · exact ⟨List.mem_append_left _ (hr.keys x hx).1, (hr.keys x hx).2⟩
      · rw [List.mem_singleton.1 hx, hk, hputName]
        refine ⟨by show t.name ∈ _; simp, ?_⟩
        rw [htitle]
        show kl t.name [] (b! "TTree") + (w''.p.length : Int) < 2 ^ 30
        omega
    · have hl := hr.lens
      unfold keysLen at hl ⊢
      rw [hdir, hkeys, s3, List.map_append, List.sum_append, hk, hputName, htitle]
      show 4 + ((f.dir.keys.map Key.keyLen).sum + (kl t.name [] (b! "TTree") + 0)) ≤ _
      rw [List.length_append]
      simp only [List.length_singleton]
      omega
  · have hhdr : g4.header = g3.header := by rw [hsame4]
    rw [hhdr]
    omega

/-! ### All the trees -/

/-- The calls that write trees, and what is needed to know about them. -/
structure Ran (env : Env) (f : FileW) (ts : List TreeIn) (ops : List Op) (f' : FileW) : Prop where
  runs : Runs env f ops f'
  puts : (acceptedPuts env f ops).map (fun p => (p.1, p.2.cls, p.2.title)) = ts.map (fun t => (t.name, b! "TTree", []))
  objects : ∀ p ∈ acceptedPuts env f ops, Storable p
  records : ∀ op ∈ ops, op.Describable
  made : OnlyVectors ops

theorem Ran.treeNames {env : Env} {f g : FileW} {ts : List TreeIn} {ops : List Op} (h : Ran env f ts ops g) :
    (acceptedPuts env f ops).map Prod.fst = ts.map TreeIn.name := by
  have := congrArg (List.map Prod.fst) h.puts
  rw [List.map_map, List.map_map] at this
  exact this

theorem Ran.vectors {env : Env} {f g : FileW} {ts : List TreeIn} {ops : List Op} (h : Ran env f ts ops g) (cn : Str)
    (si : StreamerInfo) (hs : Op.register si ∈ ops) : DescribesVector cn si :=
  let ⟨_, ht⟩ := h.made si hs
  makeVector_describes ht

theorem Ran.append {env : Env} {f g h : FileW} {ts us : List TreeIn} {a b : List Op} (h1 : Ran env f ts a g)
    (h2 : Ran env g us b h) : Ran env f (ts ++ us) (a ++ b) h := by
  refine ⟨runs_trans h1.runs h2.runs, ?_, ?_, ?_, ?_⟩
  · rw [h1.runs.accepted_append, List.map_append, List.map_append, h1.puts, h2.puts]
  · rw [h1.runs.accepted_append]
    intro p hp
    rcases List.mem_append.1 hp with hp | hp
    · exact h1.objects p hp
    · exact h2.objects p hp
  · intro p hp
    rcases List.mem_append.1 hp with hp | hp
    · exact h1.records p hp
    · exact h2.records p hp
  · intro si hp
    rcases List.mem_append.1 hp with hp | hp
    · exact h1.made si hp
    · exact h2.made si hp

theorem Ran.nil {env : Env} {f : FileW} : Ran env f [] [] f :=
  ⟨.nil, rfl, (fun p hp => by cases hp), (fun p hp => by cases hp), (fun si hp => by cases hp)⟩

theorem TreeStored.ran {env : Env} {t : TreeIn} (ht : t.Ok) {f1 f2 g g' : FileW} {w : WTree} {ops : List Op}
    {sis : List StreamerInfo} (hs : TreeStored env path t.name t.places t.cols f1 f2 w ops g g' sis) :
    Ran env f1 [t] (ops ++ ([Op.put t.name (w.putObj t.places)] ++ sis.map Op.register)) f2 := by
  obtain ⟨tot, -, hd⟩ := hs.data
  have hname : (w.putObj t.places).name = t.name := by
    show w.data.named.name = t.name
    rw [hd]; rfl
  have htitle : (w.putObj t.places).title = [] := by
    show w.data.named.title = []
    rw [hd]; rfl
  have hacc : acceptedPuts env f1 (ops ++ ([Op.put t.name (w.putObj t.places)] ++ sis.map Op.register)) =
      [(t.name, w.putObj t.places)] := by
    rw [hs.baskets.accepted_append, hs.only.accepted, List.nil_append, hs.run_put.accepted_append,
      registers_accepted, List.append_nil]
    show (Op.put t.name (w.putObj t.places)).accepted env g ++ [] = _
    unfold Op.accepted
    rw [show (Op.put t.name (w.putObj t.places)).run env g = Verif.put env t.name (w.putObj t.places) g from rfl, hs.put]
    show [(storedName t.name (w.putObj t.places), w.putObj t.places)] ++ [] = _
    have hn : storedName t.name (w.putObj t.places) = t.name := by
      unfold storedName
      split
      · next h => rw [hname, h]
      · rfl
    rw [hn]
    rfl
  refine ⟨runs_trans hs.baskets (runs_trans hs.run_put hs.registers), ?_, ?_, ?_, ?_⟩
  · rw [hacc]
    show [(t.name, b! "TTree", (w.putObj t.places).title)] = [(t.name, b! "TTree", [])]
    rw [htitle]
  · rw [hacc]
    intro p hp
    rw [List.mem_singleton.1 hp]
    have := ht.short
    refine ⟨ht.text, by rw [htitle]; rfl, rfl, ?_⟩
    rw [htitle]
    show t.name.length + 0 + 5 ≤ 32700
    omega
  · intro op hop
    simp only [List.mem_append, List.mem_map, List.mem_singleton] at hop
    rcases hop with h | h | ⟨si, h, rfl⟩
    · obtain ⟨bk, rfl⟩ := hs.only op h
      trivial
    · subst h; trivial
    · obtain ⟨c, -, e, -, hm⟩ := hs.infos si h
      exact makeVector_describable hm
  · intro si hop
    simp only [List.mem_append, List.mem_map, List.mem_singleton] at hop
    rcases hop with h | h | ⟨si', h, hsi⟩
    · obtain ⟨bk, h⟩ := hs.only _ h
      cases h
    · cases h
    · cases hsi
      obtain ⟨c', -, e', -, hm⟩ := hs.infos si h
      exact ⟨e', hm⟩

/-- The numbers handed out while trees are written. -/
def numbers (ts : List TreeIn) : Nat := (ts.map fun t => 42 + 2 * t.cols.length).sum

theorem tree_ran {t : TreeIn} (ht : t.Ok) {f f' : FileW} (hi : Inv path f) {w w' : WTree}
    (hb : buildTree t.name t.callbacks t.cols = .ok w) (h : w.write (bundledEnv addr) t.places f = (.ok w', f'))
    (hs : f'.Below2GB) : ∃ ops, Ran (bundledEnv addr) f [t] ops f' := by
  obtain ⟨t', ops, g, g', sis, hst⟩ := TreeStored.of_write hi (fun c hc => (ht.columns c hc).values) hb h hs
  exact ⟨_, hst.ran ht⟩

theorem writeTrees_runs {ts : List TreeIn} (hts : ∀ t ∈ ts, t.Ok) {f : FileW} (hr : Ready path names ids f)
    (hnd : (names ++ ts.map TreeIn.name).Nodup)
    (hroom : f.header.end_ + (ts.map TreeIn.cost).sum + 100000 ≤ 2000000000) :
    ∃ f' ops, writeTrees (bundledEnv addr) ts f = (.ok (), f') ∧ Ran (bundledEnv addr) f ts ops f' ∧
      Ready path (names ++ ts.map TreeIn.name) (ids + numbers ts) f' ∧
      f'.header.end_ + 1200 * ts.length ≤ f.header.end_ + (ts.map TreeIn.cost).sum := by
  induction ts generalizing names ids f with
  | nil =>
    refine ⟨f, [], rfl, .nil, by simpa [numbers] using hr, ?_⟩
    simp
  | cons t ts ih =>
    simp only [List.map_cons, List.sum_cons] at hroom
    have ht := hts t (List.mem_cons_self ..)
    have hnew : t.name ∉ names := by
      intro h
      rw [List.nodup_append] at hnd
      exact hnd.2.2 _ h _ (by simp) rfl
    obtain ⟨w, w', f1, hb, hw, hr1, hend1⟩ := tree_runs (addr := addr) ht hr hnew (by omega)
    obtain ⟨ops1, hran1⟩ := tree_ran ht hr.inv hb hw hr1.below
    obtain ⟨f2, ops2, h2, hran2, hr2, hend2⟩ := ih (fun t hm => hts t (List.mem_cons_of_mem _ hm)) hr1
      (by rw [List.append_assoc]; exact hnd) (by omega)
    refine ⟨f2, ops1 ++ ops2, ?_, hran1.append hran2, ?_, ?_⟩
    · unfold writeTrees
      rw [Fs.bind_of_ok (show Fs.lift (buildTree t.name t.callbacks t.cols) f = (.ok w, f) by rw [hb]; rfl),
        Fs.bind_of_ok hw]
      exact h2
    · rw [List.append_assoc] at hr2
      have e : ids + numbers (t :: ts) = ids + 42 + 2 * t.cols.length + numbers ts := by
        simp only [numbers, List.map_cons, List.sum_cons]
        omega
      rw [e]
      exact hr2
    · simp only [List.map_cons, List.sum_cons, List.length_cons]
      omega

theorem writeTrees_append {env : Env} {a b : List TreeIn} {f g h : FileW} (h1 : writeTrees env a f = (.ok (), g))
    (h2 : writeTrees env b g = (.ok (), h)) : writeTrees env (a ++ b) f = (.ok (), h) := by
  induction a generalizing f with
  | nil =>
    obtain ⟨-, rfl⟩ := Fs.ok_pure.1 h1
    exact h2
  | cons t a ih =>
    unfold writeTrees at h1
    rw [List.cons_append]
    unfold writeTrees
    obtain ⟨w, f1, h3, h1⟩ := Fs.ok_bind.1 h1
    obtain ⟨w', f2, h4, h1⟩ := Fs.ok_bind.1 h1
    rw [Fs.bind_of_ok h3, Fs.bind_of_ok h4]
    exact ih h1

/-- The trees before one, the tree, and the trees after it. -/
theorem writeTrees_split {a b : List TreeIn} {t : TreeIn} (hts : ∀ x ∈ a ++ t :: b, x.Ok) {f g : FileW}
    (hr : Ready path names ids f) (hnd : (names ++ (a ++ t :: b).map TreeIn.name).Nodup)
    (hroom : f.header.end_ + ((a ++ t :: b).map TreeIn.cost).sum + 100000 ≤ 2000000000)
    (hg : writeTrees (bundledEnv addr) (a ++ t :: b) f = (.ok (), g)) :
    ∃ f1 f2 before after w w', Ran (bundledEnv addr) f a before f1 ∧ Ran (bundledEnv addr) f2 b after g ∧
      buildTree t.name t.callbacks t.cols = .ok w ∧ w.write (bundledEnv addr) t.places f1 = (.ok w', f2) ∧
      f2.Below2GB := by
  simp only [List.map_append, List.map_cons, List.sum_append, List.sum_cons] at hroom hnd
  have hnd1 : (names ++ a.map TreeIn.name).Nodup := by
    rw [← List.append_assoc] at hnd
    exact (List.nodup_append.1 hnd).1
  obtain ⟨f1, before, h1, hran1, hr1, hend1⟩ := writeTrees_runs (addr := addr)
    (fun x hx => hts x (List.mem_append_left _ hx)) hr hnd1 (by omega)
  have hnew : t.name ∉ names ++ a.map TreeIn.name := by
    intro h
    rw [← List.append_assoc, List.nodup_append] at hnd
    exact hnd.2.2 _ h _ (by simp) rfl
  have ht := hts t (by simp)
  obtain ⟨w, w', f2, hb, hw, hr2, hend2⟩ := tree_runs (addr := addr) ht hr1 hnew (by omega)
  obtain ⟨f3, after, h3, hran3, hr3, -⟩ := writeTrees_runs (addr := addr) (ts := b)
    (fun x hx => hts x (List.mem_append_right _ (List.mem_cons_of_mem _ hx))) hr2
    (by simpa [List.append_assoc] using hnd) (by omega)
  have h2 : writeTrees (bundledEnv addr) (t :: b) f1 = (.ok (), f3) := by
    unfold writeTrees
    rw [Fs.bind_of_ok (show Fs.lift (buildTree t.name t.callbacks t.cols) f1 = (.ok w, f1) by rw [hb]; rfl),
      Fs.bind_of_ok hw]
    exact h3
  have h := writeTrees_append h1 h2
  rw [hg] at h
  injection h with _ h
  subst h
  exact ⟨f1, f2, before, after, w, w', hran1, hran3, hb, hw, hr2.below⟩

/-! ### Closing -/

theorem ready_closes (he : (bundledEnv addr).Sound) {f : FileW} (hr : Ready path names ids f)
    (hk : InfosOk f.sinfos f.ids) (hpath : path.length ≤ 1000) (ha : ∀ j, ids + 200000 ≤ addr j)
    (hroom : f.header.end_ + 1200 * names.length + 1000000 ≤ 2000000000) :
    ∃ f', Closes (bundledEnv addr) f f' ∧ f'.header.nBytesInfo < 2 ^ 30 ∧ f'.sinfos.length < 2 ^ 31 ∧
      (∀ j, f'.ids ≤ addr j) ∧ f'.dir.keys = f.dir.keys := by
  obtain ⟨s, i, hdeps, hinf, hids⟩ := findDeep_infos (addr := addr) (f := closing1 f) hr.infos
  have hk' := findDeep_infosOk he hdeps (show InfosOk (closing1 f).sinfos (closing1 f).ids from hk)
  have hi' : ∀ j, i ≤ addr j := by
    intro j
    have h1 := ha j
    have h2 := hr.ids
    have h3 : i ≤ f.ids + 200000 := hids
    omega
  obtain ⟨n, w, hm, hlen⟩ := infos_marshal he hinf hk' hi' infoKeyLen.toNat
  have hik : infoKeyLen = 64 := by decide
  have h1 := kl_le_small path [] (b! "TDirectory")
  have h2 := kl_le_small path [] (b! "TFile")
  have e1 : (b! "TDirectory").length = 10 := rfl
  have e2 : (b! "TFile").length = 5 := rfl
  have e3 : ([] : Str).length = 0 := rfl
  have hl := hr.lens
  refine ⟨_, close_small hr.inv hr.below hdeps hm (by omega), ?_, ?_, hi', rfl⟩
  · show infoKeyLen + asI 4 w.p.length < 2 ^ 30
    rw [asI4_nat (by unfold kStartBigFile; omega)]
    omega
  · show s.length < 2 ^ 31
    have := hinf.short.1
    omega

end

end Verif
