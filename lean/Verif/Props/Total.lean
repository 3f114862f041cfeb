import Verif.Lemmas.Total
import Verif.Props.TreeSession
import Verif.Props.Dictionary
/-
C50: writing trees to a new file and closing it succeeds, and the file gives all the trees back.
-/
namespace Verif

/-- The classes of vectors are not in the dictionary. -/
theorem bundled_noVectors : (bundledList.all fun s =>
    vectorItems.all fun t => match (Ty.vec t).wrClassName with
      | .ok c => decide (s.named.name ≠ c)
      | .error _ => true) = true := by decide +kernel

theorem bundled_describes (addr : Nat → Nat) {t : Ty} (ht : t.isSupported = true) {e : Ty} (he : t = .vec e) {cn : Str}
    (hcn : t.wrClassName = .ok cn) {n : Str} {v : Int} {s : StreamerInfo} (h : (bundledEnv addr).db n v = some s) :
    DescribesVector cn s := by
  rw [bundledEnv_db] at h
  intro hn
  have h1 := List.all_eq_true.1 bundled_noVectors s (bundledDb_mem h)
  subst he
  have hmem : e ∈ vectorItems := by
    cases e <;> first | (cases ht; done) | decide
  have h2 := List.all_eq_true.1 h1 e hmem
  rw [hcn] at h2
  exact absurd hn (by simpa using h2)

section
variable {addr : Nat → Nat} {path : Str} {ids : Nat} {ts : List TreeIn}

attribute [local irreducible] bundledList bundledRecords bundledDb allRecords treeRecords tTreeRecord vectorRecords

theorem numbers_le (hs : Storables ts) : numbers ts ≤ 15000000 := by
  have h : ∀ l : List TreeIn, 140 * numbers l ≤ (l.map TreeIn.cost).sum := by
    intro l
    unfold numbers
    induction l with
    | nil => exact Nat.le_refl _
    | cons t l ih =>
      simp only [List.map_cons, List.sum_cons]
      have : t.cost = (t.cols.map Column.cost).sum + 6000 := rfl
      have := (cost_le t.cols).1
      omega
  have := h ts
  have := hs.room
  omega

/-- The session of a program that creates a file, writes trees to it and closes it, seen from each of the trees. -/
theorem writeFile_session (ha : ∀ i j, addr i = addr j → i = j) (hmem : ∀ j, ids + 20000000 ≤ addr j)
    (htext : utf8 path = true) (hpath : path.length ≤ 478) (hs : Storables ts) :
    ∃ f0 f f', writeFile (bundledEnv addr) ts (FileW.initial path ids) = (.ok (), f') ∧
      (∀ (dec : Decoders) (fuel : Nat), 3 ≤ fuel → ∃ r, openFile dec fuel (image f'.trace) = .ok r ∧
        r.dir.keys.map (fun k => (k.name, k.cls, k.title)) = ts.map (fun t => (t.name, b! "TTree", []))) ∧
      ((∀ j, f'.ids ≤ addr j) ∧ ∃ ops, Written (bundledEnv addr) path ids ops f0 f f' ∧
        Holds (bundledEnv addr) path ops f0 f' ∧ (acceptedPuts (bundledEnv addr) f0 ops).map (fun p => (p.1, p.2.cls, p.2.title)) =
          ts.map (fun t => (t.name, b! "TTree", []))) ∧
      ∀ t ∈ ts, ∃ before after f1 f2,
        TreeWritten (bundledEnv addr) path ids before after t.name t.callbacks t.cols t.places f0 f1 f2 f f' ∧
        TreeHolds (bundledEnv addr) path before after t.name t.cols t.places f0 f2 f' ∧
        OnlyVectors (before ++ after) := by
  have he := C48_storable addr ha
  obtain ⟨hcr, hb0⟩ := create_runs (path := path) ids (by omega)
  have hend0 : (createdFile path ids).header.end_ ≤ 2000 := by
    have := pathLen_short.1 hpath
    show dirPos path + 60 ≤ 2000
    unfold dirPos
    omega
  have hlim : dirPos path + 60 ≤ kStartBigFile := by
    have : dirPos path + 60 ≤ 2000 := hend0
    unfold kStartBigFile
    omega
  have hi0 := Inv.created (path := path) (ids := ids) hlim
  have hr0 : Ready path [] ids (createdFile path ids) :=
    ⟨hi0, hb0, InfosOf.nil _, Nat.le_refl _, (fun k hk => by cases hk), Int.le_refl _⟩
  have hroom := hs.room
  obtain ⟨f, ops, hw, hran, hr, hend⟩ := writeTrees_runs (addr := addr) hs.each hr0
    (by simpa using hs.names) (by omega)
  rw [List.nil_append] at hr
  have hnum := numbers_le hs
  have hk : InfosOk f.sinfos f.ids := runs_infosOk he hran.records hi0 hran.runs (InfosOk.nil _)
  obtain ⟨f', hcl, hbytes, hlen, hids, hkeys⟩ := ready_closes he hr hk (by omega)
    (fun j => by have := hmem j; omega) (by rw [List.length_map]; omega)
  have hwritten : Written (bundledEnv addr) path ids ops (createdFile path ids) f f' := ⟨hcr, hb0, hran.runs, hcl⟩
  have hholds : Holds (bundledEnv addr) path ops (createdFile path ids) f' :=
    ⟨he, htext, hpath, hran.objects, hran.records, hbytes, hlen, hids⟩
  obtain ⟨-, -, -, -, s, i, buf, -, -, -, -, hop⟩ := hwritten.opened hholds
  refine ⟨createdFile path ids, f, f', ?_, fun dec fuel hfuel => ⟨_, hop dec fuel hfuel, ?_⟩,
    ⟨hids, ops, hwritten, hholds, hran.puts⟩, ?_⟩
  · unfold writeFile
    rw [Fs.bind_of_ok hcr, Fs.bind_of_ok hw]
    exact hcl.1
  · show (f.dir.keys.map Key.listed).map _ = _
    have h1 := congrArg (List.map fun x : Str × Str × Str => (x.1, shownClass x.2.1, x.2.2)) (keys_accepted hi0 rfl hran.runs)
    have h2 := congrArg (List.map fun x : Str × Str × Str => (x.1, shownClass x.2.1, x.2.2)) hran.puts
    simp only [List.map_map] at h1 h2 ⊢
    exact (h1.trans h2)
  · intro t ht
    obtain ⟨a, b, hab⟩ := List.append_of_mem ht
    have hsplit := writeTrees_split (addr := addr) (a := a) (b := b) (t := t) (by rw [← hab]; exact hs.each) hr0
      (by rw [← hab]; simpa using hs.names) (by rw [← hab]; omega) (by rw [← hab]; exact hw)
    obtain ⟨f1, f2, before, after, w, w', hran1, hran2, hbt, hwt, hb2⟩ := hsplit
    have htw : TreeWritten (bundledEnv addr) path ids before after t.name t.callbacks t.cols t.places
        (createdFile path ids) f1 f2 f f' := ⟨hcr, hb0, hran1.runs, ⟨w, w', .of_columns hbt, hwt⟩, hb2, hran2.runs, hcl⟩
    have hok := hs.each t ht
    have hcost := mem_le_sum (q := TreeIn.cost) ht
    have hcost' : t.cost = (t.cols.map Column.cost).sum + 6000 := rfl
    have hsums := (cost_le t.cols).1
    have hnames : treeNames (bundledEnv addr) t.name before after (createdFile path ids) f2 = ts.map TreeIn.name := by
      unfold treeNames
      rw [hran1.treeNames, hran2.treeNames, hab, List.map_append, List.map_cons]
    have hlong : longest t.cols < 2 ^ 31 := by
      have : longest t.cols ≤ 1600000000 := by
        refine longest_le.2 fun c hc => ?_
        have h1 := mem_le_sum (q := Column.cost) hc
        have h3 := c.bytes_cost.1
        have h2 : c.vals.length ≤ c.bytes := column_length hok hi0 hc
        omega
      omega
    have hth : TreeHolds (bundledEnv addr) path before after t.name t.cols t.places (createdFile path ids) f2 f' := by
      have hshort := hok.short
      refine ⟨he, htext, hpath, ?_, ?_, hbytes, hlen, hids, ?_, hok.text, by omega, hok.noSemicolon, ?_,
        fun c hc => (hok.columns c hc).holds hok.short, by omega, hlong, hok.memory, hok.distinct, ?_, ?_, ?_⟩
      · intro p hp
        rcases List.mem_append.1 hp with hp | hp
        · exact hran1.objects p hp
        · exact hran2.objects p hp
      · intro p hp
        rcases List.mem_append.1 hp with hp | hp
        · exact hran1.records p hp
        · exact hran2.records p hp
      · intro n
        rw [hnames]
        have := List.nodup_iff_count.1 hs.names n
        omega
      · intro p hp hpn
        have h1 : p.1 ∈ b.map TreeIn.name := by
          rw [← hran2.treeNames]; exact List.mem_map_of_mem hp
        have h2 := hs.names
        rw [hab, List.map_append, List.map_cons, List.nodup_append] at h2
        exact (List.nodup_cons.1 h2.2.1).1 (hpn ▸ h1)
      · intro k hk hkn
        rw [hkeys] at hk
        exact (hr.keys k hk).2
      · intro c hc e hce cn hcn n v s hdb
        exact bundled_describes addr (hok.columns c hc).supported hce hcn hdb
      · intro c hc e hce cn hcn si hsi
        rcases List.mem_append.1 hsi with h | h
        · exact hran1.vectors cn si h
        · exact hran2.vectors cn si h
    refine ⟨before, after, f1, f2, htw, hth, fun si hsi => ?_⟩
    rcases List.mem_append.1 hsi with h | h
    · exact hran1.made si h
    · exact hran2.made si h

/-- C50: a program that creates a file, writes any trees to it (of supported types, texts and vectors of at
most 1001 bytes, not more numbers or arrays than fit into 32766 baskets, in all below 2 GB) and closes it meets no error and does not abort; the file opens
again, lists exactly these trees in this order, and every tree has its columns, in their order and with
their numbers of values, and iterating over a column, by name, gives its values, and is refused with any
other type. -/
theorem C50_total (ha : ∀ i j, addr i = addr j → i = j) (hmem : ∀ j, ids + 20000000 ≤ addr j)
    (htext : utf8 path = true) (hpath : path.length ≤ 478) (hs : Storables ts) (dec : Decoders) (fuel : Nat)
    (hfuel : 3 ≤ fuel) :
    ∃ f' r, writeFile (bundledEnv addr) ts (FileW.initial path ids) = (.ok (), f') ∧
      openFile dec fuel (image f'.trace) = .ok r ∧ r.keysName = ts.map TreeIn.name ∧
      ∀ t ∈ ts, ∃ (td : TreeData) (bs : List Branch), r.getTree dec fuel t.name = .ok (td, bs, none) ∧
        td.named.name = t.name ∧ td.entries = longest t.cols ∧
        bs.map (fun b => (b.name, b.data.entries)) = t.cols.map (fun c => (c.name, (c.vals.length : Int))) ∧
        ((t.cols.map fun c => c.name).Nodup → ∀ c ∈ t.cols, (91 : Byte) ∉ c.name → (93 : Byte) ∉ c.name →
          ∃ b, lookupBranch bs c.name = some b ∧ ∀ top,
            b.asIter (r.reader dec) top (some c.ty.rdClassNames) c.ty.unmarshal = .ok c.vals ∧
            ∀ t, t ≠ c.ty → b.asIter (r.reader dec) top (some t.rdClassNames) t.unmarshal =
              .error (.err .typeMismatch)) := by
  obtain ⟨f0, f, f', hw, ho, -, hts⟩ := writeFile_session ha hmem htext hpath hs
  obtain ⟨r, hr, hk⟩ := ho dec fuel hfuel
  refine ⟨f', r, hw, hr, ?_, fun t ht => ?_⟩
  · have := congrArg (List.map Prod.fst) hk
    rw [List.map_map, List.map_map] at this
    exact this
  obtain ⟨before, after, f1, f2, htw, hth, -⟩ := hts t ht
  obtain ⟨r, td, bs, ho, hg, h1, h2, h3, h4⟩ := tree_reopened htw hth dec fuel hfuel
  rw [hr] at ho
  cases ho
  refine ⟨td, bs, hg, h1, h2, ?_, fun hnd c hc hl hb => ?_⟩
  · refine List.ext_getElem? fun i => ?_
    rw [List.getElem?_map, List.getElem?_map]
    rcases Nat.lt_or_ge i t.cols.length with hi | hi
    · rw [List.getElem?_eq_getElem hi, List.getElem?_eq_getElem (h3 ▸ hi)]
      obtain ⟨e1, -, e2, -⟩ := h4 i _ _ (List.getElem?_eq_getElem hi) (List.getElem?_eq_getElem (h3 ▸ hi))
      show some (_, _) = some (_, _)
      rw [e1, e2]
    · rw [List.getElem?_eq_none hi, List.getElem?_eq_none (h3 ▸ hi)]
      rfl
  · obtain ⟨r, td', bs', ho, hg', h5⟩ := column_reopened htw hth hnd dec fuel hfuel
    rw [hr] at ho
    cases ho
    rw [hg] at hg'
    cases hg'
    obtain ⟨x, hx, hy⟩ := h5 c hc hl hb
    exact ⟨x, hx, hy⟩

end

/-! ### The hypotheses can be met -/

/-- Three trees: numbers, texts, vectors; arrays and booleans; nothing. -/
def demoTrees : List TreeIn :=
  [{ name := b! "t", callbacks := 2, cols := demoCols, places := demoPlaces },
   { name := b! "u", cols := [⟨.arr 3 .i16, b! "a", [[1, 2, 3], [-1, 0, 5]]⟩, ⟨.bool, b! "b", [true]⟩], places := demoPlaces },
   { name := b! "empty", cols := [], places := demoPlaces }]

theorem demoTrees_storable : Storables demoTrees := by
  refine ⟨fun t ht => ?_, by decide, by decide⟩
  simp only [demoTrees, List.mem_cons, List.not_mem_nil, or_false] at ht
  rcases ht with rfl | rfl | rfl
  · refine ⟨by decide, by decide, by decide, by decide, fun c hc => ?_, fun _ => rfl, by decide⟩
    simp only [demoCols, List.mem_cons, List.not_mem_nil, or_false] at hc
    rcases hc with rfl | rfl | rfl
    · exact ⟨rfl, by decide, by decide, by decide, by decide, by decide⟩
    · exact ⟨rfl, by decide, by decide, by decide, by decide, by decide⟩
    · exact ⟨rfl, by decide, by decide, by decide, by decide, by decide⟩
  · refine ⟨by decide, by decide, by decide, by decide, fun c hc => ?_, fun _ => rfl, by decide⟩
    simp only [List.mem_cons, List.not_mem_nil, or_false] at hc
    rcases hc with rfl | rfl
    · exact ⟨rfl, by decide, by decide, by decide, by decide, by decide⟩
    · exact ⟨rfl, by decide, by decide, by decide, by decide, by decide⟩
  · exact ⟨by decide, by decide, by decide, by decide, (fun c hc => by cases hc), fun _ => rfl, by decide⟩

example : Storables demoTrees ∧ (∀ i j : Nat, i + 20000001 = j + 20000001 → i = j) ∧
    (∀ j : Nat, 1 + 20000000 ≤ j + 20000001) ∧ utf8 (b! "d.root") = true :=
  ⟨demoTrees_storable, fun _ _ h => by omega, fun _ => by omega, by decide⟩

end Verif
