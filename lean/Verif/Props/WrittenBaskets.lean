import Verif.Lemmas.WrittenBaskets
import Verif.Props.Format
import Verif.Props.RootClosed
import Verif.Props.Total
/-
C68: the baskets that are written are baskets of ROOT.
-/
namespace Verif

section
variable {env : Env} {path tn : Str} {ids : Nat} {before after : List Op} {cb : Nat} {cols : List Column}
  {places : Places} {f0 f1 f2 f f' : FileW}

/-- C68, sessions: the branches of a tree that was written list the baskets of their columns.  They are baskets of
ROOT at the announced places: their key and their numbers are right, they are labelled with the branch, the tree
and their number, they hold the entries of the column in order, those of texts and vectors have the table of the
positions of the entries, and in the others all entries have the announced length.  The branch knows the first entry
of each of them, how many there are and how many bytes they take. -/
theorem C68_baskets (hw : TreeWritten env path ids before after tn cb cols places f0 f1 f2 f f')
    (hh : TreeHolds env path before after tn cols places f0 f2 f') (dec : Decoders) (fuel : Nat) (hfuel : 3 ≤ fuel) :
    ∃ (r : FileR) (td : TreeData) (bs : List Branch), openFile dec fuel (image f'.trace) = .ok r ∧
      r.getTree dec fuel tn = .ok (td, bs, none) ∧ bs.length = cols.length ∧
      ∀ (i : Nat) (c : Column) (b : Branch), cols[i]? = some c → bs[i]? = some b →
        ∃ xs, ColumnBaskets (r.reader dec) tn c b.data xs := by
  obtain ⟨t, ops, g, g', sis, r, hs, hr, hr2, hget, -⟩ := tree_found hw hh dec fuel hfuel
  refine ⟨r, _, _, hr, hget, ?_, fun i c b hc hb => ?_⟩
  · rw [List.length_map]; exact hs.branches.length.symm
  · rw [List.getElem?_map] at hb
    obtain ⟨wb, hwb, rfl⟩ := Option.map_eq_some_iff.1 hb
    have hcm := List.mem_of_getElem? hc
    exact (hs.branches.get hc hwb).root (hh.columns c hcm) hh.treeText hs.inv (Later.close (hs.tail hw) hw.close) hr2

end

/-- C68, whole files: a program that creates a file, writes any trees to it (of supported types, with entries of at
most 1001 bytes, in all below 2 GB) and closes it leaves a file of ROOT: the keys are those of the trees, behind each is
the record of a tree in the format of ROOT, and its branches list baskets of ROOT with the entries of the columns. -/
theorem C68_file {addr : Nat → Nat} {path : Str} {ids : Nat} {ts : List TreeIn}
    (ha : ∀ i j, addr i = addr j → i = j) (hmem : ∀ j, ids + 20000000 ≤ addr j)
    (htext : utf8 path = true) (hpath : path.length ≤ 478) (hs : Storables ts) (dec : Decoders) (fuel : Nat)
    (hfuel : 3 ≤ fuel) :
    ∃ (f' : FileW) (F : RootFile) (r : FileR), writeFile (bundledEnv addr) ts (FileW.initial path ids) = (.ok (), f') ∧
      F.Ok ∧ F.infos.Ok ∧ F.In dec (image f'.trace) ∧ F.top.name = path ∧
      F.keys.map (fun k => (k.1.name, k.1.cls, k.1.title)) = ts.map (fun t => (t.name, b! "TTree", [])) ∧
      openFile dec fuel (image f'.trace) = .ok r ∧
      ∀ t ∈ ts, ∃ k ∈ F.keys, ∃ (td : TreeData) (bs : List (PlacedBranch × Nat)) (bytes : List Byte) (m : Marks),
        k.1.name = t.name ∧ td.part bs k.1.keyLen.toNat Marks.empty = some (bytes, m) ∧
        k.1.nBytes = k.1.keyLen + bytes.length ∧ bytes <+: (image f'.trace).drop (k.1.seekKey + k.1.keyLen).toNat ∧
        r.getTree dec fuel t.name = .ok (td.expected, bs.map fun p => p.1.branch.expected p.2, none) ∧
        bs.length = t.cols.length ∧ ∀ (i : Nat) c p, t.cols[i]? = some c → bs[i]? = some p →
          p.1.branch.name = c.name ∧ p.1.branch.data.entries = c.vals.length ∧
          ∃ xs, ColumnBaskets (r.reader dec) t.name c (p.1.branch.expected p.2).data xs := by
  obtain ⟨f0, f, f', hw, ho, ⟨-, ops, hwr, hho, hputs⟩, hts⟩ := writeFile_session ha hmem htext hpath hs
  obtain ⟨r, hr, -⟩ := ho dec fuel hfuel
  obtain ⟨F, h1, h2, -, h3, h4, h5, -, -, h6⟩ := C67_root_file hwr hho (fun p hp => by
    have := List.mem_map_of_mem (f := fun p : Str × PutObj => (p.1, p.2.cls, p.2.title)) hp
    rw [hputs] at this
    obtain ⟨t, -, e⟩ := List.mem_map.1 this
    injection e with e1 e2
    injection e2 with e2 e3
    rw [← e2]
    decide) dec
  refine ⟨f', F, r, hw, h1, h2, h3, h4, ?_, hr, fun t ht => ?_⟩
  · rw [← hputs]
    refine h6.map_eq fun p k ⟨x, e, _, n1, n2, n3, _⟩ => ?_
    rw [← e]
    dsimp only
    rw [n1, n2, n3]
  · obtain ⟨before, after, f1, f2, htw, hth, -⟩ := hts t ht
    obtain ⟨k, td, bs, bytes, m, k1, k2, -, k3, k4, k5, k6, k7, k8⟩ := C64_tree_in_file htw hth
    obtain ⟨r1, hr1, hg1⟩ := k6 dec fuel hfuel
    rw [hr] at hr1
    cases hr1
    obtain ⟨r2, td2, bs2, hr2, hg2, -, hx⟩ := C68_baskets htw hth dec fuel hfuel
    rw [hr] at hr2
    cases hr2
    rw [hg1] at hg2
    cases hg2
    rw [← h5] at k1
    obtain ⟨q, hq, rfl⟩ := List.mem_map.1 k1
    refine ⟨q, hq, td, bs, bytes, m, k2, k3, k4, k5, hg1, k7, fun i c p hc hp => ?_⟩
    obtain ⟨n1, n2⟩ := k8 i c p hc hp
    exact ⟨n1, n2, hx i c _ hc (by rw [List.getElem?_map, hp]; rfl)⟩

/-- The hypotheses hold for a session that writes a tree with three columns; the baskets of the first one hold its
four numbers. -/
example (dec : Decoders) : ∃ (r : FileR) (b : BranchData) (xs : List RootBasket),
    openFile dec 3 (image demoTreeClosed.trace) = .ok r ∧
    (∀ x ∈ xs, x.In (r.reader dec)) ∧ xs.flatMap RootBasket.entries = [(1 : Int), -2, 3, 4].map (marshalled .i32) ∧
    b.basketSeek = xs.map fun x => x.key.seekKey := by
  obtain ⟨r, td, bs, h1, -, h2, h3⟩ := C68_baskets demo_session_written demo_session_holds dec 3 (Nat.le_refl _)
  have hlt : 0 < bs.length := by rw [h2]; decide
  obtain ⟨xs, hx⟩ := h3 0 _ _ rfl (List.getElem?_eq_getElem hlt)
  obtain ⟨l, hl⟩ := hx.listed
  exact ⟨r, _, xs, h1, hl.there, hx.entries, hl.seek⟩

/-- The hypotheses of the theorem about files hold for the three trees of C50. -/
example (dec : Decoders) : ∃ (f' : FileW) (F : RootFile), writeFile (bundledEnv fun j => j + 20000001) demoTrees (FileW.initial (b! "d.root") 1) = (.ok (), f') ∧
    F.Ok ∧ F.In dec (image f'.trace) ∧ F.keys.map (fun k => k.1.name) = [b! "t", b! "u", b! "empty"] := by
  obtain ⟨f', F, -, h1, h2, -, h3, -, h4, -⟩ := C68_file (addr := fun j => j + 20000001) (ids := 1) (path := b! "d.root")
    (fun _ _ h => by omega) (fun _ => by omega) (by decide) (by decide) demoTrees_storable dec 3 (Nat.le_refl _)
  refine ⟨f', F, h1, h2, h3, ?_⟩
  have := congrArg (List.map Prod.fst) h4
  rw [List.map_map] at this
  exact this

end Verif
