import Verif.Lemmas.TreeRecords
import Verif.Spec.Version
/-
C31 (branches), C32 (trees), and the rest of C06 (newer versions are refused).
-/
namespace Verif

/-! ### C31 -/

/-- C31: a branch of either class, of which any number `nb` of baskets were written, is read back by
the reader registered for its class: the same name, title, entry count, leaves and all other fields,
the tables of basket sizes, first entries and positions cut to the baskets written. -/
theorem C31_branch_record (b : Branch) (nb : Nat) (h : b.Storable nb) (leafAddrs : List Nat)
    (ha : leafAddrs.length = b.data.leaves.length) (hnd : leafAddrs.Nodup) (fuel off : Nat)
    (pre : List Byte) (hpre : pre ≠ []) :
    ∃ m, factory (fuel + 2) b.cls = some m ∧
      RoundTripAt off pre (b.marshal leafAddrs) m (.branch (b.expected nb)) := by
  refine ⟨_, b.unmarshalOf_cls _, ?_⟩
  exact EmitS.roundTripAt (EmitS.thenPure (g := fun x => pure (Obj.branch x))
    (Branch.emit h ha hnd fuel) rfl) fun _ => hpre

/-- C31, the fields named by the claim. -/
theorem C31_fields (b : Branch) (nb : Nat) (h : b.Storable nb) (leafAddrs : List Nat)
    (ha : leafAddrs.length = b.data.leaves.length) (hnd : leafAddrs.Nodup) (fuel off : Nat)
    (pre : List Byte) (hpre : pre ≠ []) : ∃ m c, factory (fuel + 2) b.cls = some m ∧
      RoundTripAt off pre (b.marshal leafAddrs) m (.branch c) ∧
      c.data.named = b.data.named ∧ c.data.entries = b.data.entries ∧
      c.data.writeBasket = nb ∧
      c.data.basketBytes.length = nb ∧ c.data.basketEntry.length = nb + 1 ∧
      c.data.basketSeek.length = nb ∧
      (∀ i < nb, c.data.basketBytes[i]? = b.data.basketBytes[i]?) ∧
      (∀ i ≤ nb, c.data.basketEntry[i]? = b.data.basketEntry[i]?) ∧
      (∀ i < nb, c.data.basketSeek[i]? = b.data.basketSeek[i]?) := by
  obtain ⟨m, hm, hr⟩ := C31_branch_record b nb h leafAddrs ha hnd fuel off pre hpre
  have hd : (b.expected nb).data = b.data.expected nb := rfl
  have h2 := h.2.1
  refine ⟨m, _, hm, hr, ?_⟩
  rw [hd]
  refine ⟨rfl, rfl, h2.writeBasket, ?_, ?_, ?_, ?_, ?_, ?_⟩ <;>
    simp only [BranchData.expected, List.length_take]
  · have := h2.bytesLen; omega
  · have := h2.entryLen; omega
  · have := h2.seekLen; omega
  · intro i hi; exact List.getElem?_take_of_lt hi
  · intro i hi; exact List.getElem?_take_of_lt (by omega)
  · intro i hi; exact List.getElem?_take_of_lt hi

/-- An integer branch with three baskets. -/
def someBranch : Branch := .mk
  { named := { name := b! "run", title := b! "run/I" }
    compress := 1
    basketSize := 32000
    writeBasket := 3
    entryNumber := 25
    entries := 25
    totBytes := 400
    zipBytes := 400
    leaves := [.var .I 1 { named := { name := b! "run", title := b! "run" }, len := 1, etype := 4 } 0 0]
    basketBytes := [120, 130, 140]
    basketEntry := [0, 10, 20, 25]
    basketSeek := [300, 420, 550] } none []

theorem someBranch_storable : someBranch.Storable 3 := by
  refine ⟨rfl, ?_, fun e he => by cases he⟩
  constructor <;> try decide
  · intro l hl
    simp only [someBranch, Branch.data, List.mem_cons, List.not_mem_nil, or_false] at hl
    subst hl
    refine ⟨rfl, ?_, (by decide : InI 4 0), (by decide : InI 4 0)⟩
    constructor <;> decide

example : someBranch.Storable 3 ∧ [7].length = someBranch.data.leaves.length ∧ [7].Nodup :=
  ⟨someBranch_storable, rfl, by decide⟩

/-- The same as a `TBranchElement`. -/
example : ∃ b : Branch, b.Storable 3 ∧ b.elem.isSome ∧ b.data.leaves.length = 1 :=
  ⟨.mk someBranch.data (some { className := b! "vector<int>", btype := 41 }) [],
    ⟨rfl, someBranch_storable.2.1, fun e he => by cases he; constructor <;> decide⟩, rfl, rfl⟩

/-! ### C32 -/

/-- C32: a tree with any number of branches is read back with the same name, entry count and other
fields, and the same branches in the same order (each as C31 says); there is no user list. -/
theorem C32_tree_record (t : TreeData) (bs : List PlacedBranch) (nb : PlacedBranch → Nat)
    (h : t.Storable) (hb : PlacedOk bs nb) (fuel off : Nat) (pre : List Byte) :
    RoundTripAt off pre (t.marshal bs) (TreeData.unmarshal (readAny (fuel + 3)))
      (t.expected, bs.map (fun b => b.branch.expected (nb b)), none) :=
  (TreeData.emit (ne := false) h hb fuel).roundTripAt (by simp)

/-- C32, the fields named by the claim. -/
theorem C32_fields (t : TreeData) (bs : List PlacedBranch) (nb : PlacedBranch → Nat)
    (h : t.Storable) (hb : PlacedOk bs nb) (fuel off : Nat) (pre : List Byte) :
    ∃ t' bs', RoundTripAt off pre (t.marshal bs) (TreeData.unmarshal (readAny (fuel + 3)))
        (t', bs', none) ∧
      t'.named = t.named ∧ t'.entries = t.entries ∧
      bs'.map Branch.name = bs.map (fun b => b.branch.name) ∧
      bs'.map (fun b => b.data.entries) = bs.map (fun b => b.branch.data.entries) := by
  refine ⟨_, _, C32_tree_record t bs nb h hb fuel off pre, rfl, rfl, ?_, ?_⟩ <;>
    simp [Branch.name, Branch.expected, BranchData.expected, Branch.data, Function.comp_def]

/-- A tree as the writer makes it. -/
def someTree : TreeData :=
  { named := { name := b! "events", title := b! "" }, entries := 25, totBytes := 400,
    zipBytes := 400, scanField := 25, defaultEntryOffsetLen := 1000, maxEntries := 1000000000000,
    maxEntryLoop := 1000000000000, autoSave := -300000000, autoFlush := -30000000,
    estimate := 1000000 }

theorem someTree_storable : someTree.Storable := by constructor <;> decide

/-- Two branches at different addresses. -/
def somePlaced : List PlacedBranch := [⟨1, [2], someBranch⟩, ⟨3, [4], someBranch⟩]

example : someTree.Storable ∧ PlacedOk somePlaced (fun _ => 3) :=
  ⟨someTree_storable,
    { storable := by
        intro b hb
        simp only [somePlaced, List.mem_cons, List.not_mem_nil, or_false] at hb
        rcases hb with rfl | rfl <;> exact someBranch_storable
      addrPerLeaf := by decide
      distinct := by decide
      few := by decide
      fewLeaves := by decide }⟩

/-! ### C06 -/

/-- The newest version of each class the library reads (rvers.rs), in the words of the format. -/
def newestVersion : List (Str × Int) :=
  [(b! "TList", 5), (b! "TObjArray", 3), (b! "TStreamerInfo", 9), (b! "TStreamerBase", 3),
   (b! "TStreamerString", 2), (b! "TStreamerBasicType", 2), (b! "TStreamerObject", 2),
   (b! "TStreamerObjectPointer", 2), (b! "TStreamerObjectAny", 2), (b! "TStreamerBasicPointer", 2),
   (b! "TStreamerSTL", 3), (b! "TStreamerSTLstring", 2), (b! "TObjString", 1), (b! "TAttLine", 2),
   (b! "TAttFill", 2), (b! "TAttMarker", 2), (b! "TTree", 20), (b! "TBranch", 13),
   (b! "TBranchElement", 10), (b! "TLeaf", 2), (b! "TLeafElement", 1), (b! "TLeafI", 1),
   (b! "TLeafF", 1), (b! "TLeafD", 1), (b! "TLeafB", 1), (b! "TLeafL", 1), (b! "TLeafO", 1),
   (b! "TLeafS", 1), (b! "TLeafC", 1)]

/-- C06: whatever the class, bytes announcing a version above the newest known one are refused with
the version error, whatever the byte count and whatever follows. -/
theorem C06_classes_refuse_newer (cls : Str) (newest : Int) (hcls : (cls, newest) ∈ newestVersion)
    (r : RBuffer) (v : Int) (hc : r.c ≤ r.p.length) (h : HasVersion (r.p.drop r.c) v)
    (hv : newest < v) (fuel : Nat) :
    ∃ m, factory fuel cls = some m ∧ m r = .error (.err .versionTooHigh) := by
  simp only [newestVersion, List.mem_cons, Prod.mk.injEq, List.not_mem_nil, or_false] at hcls
  rcases hcls with ⟨rfl, rfl⟩ | ⟨rfl, rfl⟩ | ⟨rfl, rfl⟩ | ⟨rfl, rfl⟩ | ⟨rfl, rfl⟩ | ⟨rfl, rfl⟩ |
    ⟨rfl, rfl⟩ | ⟨rfl, rfl⟩ | ⟨rfl, rfl⟩ | ⟨rfl, rfl⟩ | ⟨rfl, rfl⟩ | ⟨rfl, rfl⟩ | ⟨rfl, rfl⟩ |
    ⟨rfl, rfl⟩ | ⟨rfl, rfl⟩ | ⟨rfl, rfl⟩ | ⟨rfl, rfl⟩ | ⟨rfl, rfl⟩ | ⟨rfl, rfl⟩ | ⟨rfl, rfl⟩ |
    ⟨rfl, rfl⟩ | ⟨rfl, rfl⟩ | ⟨rfl, rfl⟩ | ⟨rfl, rfl⟩ | ⟨rfl, rfl⟩ | ⟨rfl, rfl⟩ | ⟨rfl, rfl⟩ |
    ⟨rfl, rfl⟩ | ⟨rfl, rfl⟩ <;> refine ⟨_, rfl, ?_⟩ <;>
    first
      | exact Rd.bind_err (refuses_newer hc h hv)
      | exact Rd.bind_err (refuses_newer_if hc h hv)
      | exact Rd.bind_err (Rd.bind_err (refuses_newer hc h hv))

example : (b! "TTree", 20) ∈ newestVersion ∧ (20 : Int) < 21 := by decide
example : HasVersion [0x40, 0, 0, 8, 0, 21, 1, 2] 21 := by
  rw [show (21 : Int) = toSigned 2 ((0 : Byte).toNat * 256 + (21 : Byte).toNat) by decide +kernel]
  exact HasVersion.counted 0x40 0 0 8 0 21 [1, 2] (by decide +kernel)

/-- C06, the elements of a streamer record. -/
theorem C06_streamer_element_refuses_newer (r : RBuffer) (v : Int) (hc : r.c ≤ r.p.length)
    (h : HasVersion (r.p.drop r.c) v) (hv : 4 < v) :
    StreamerElement.unmarshal r = .error (.err .versionTooHigh) := refuses_newer_if hc h hv

/-- C06, baskets: their version follows the key.  Whatever key precedes, a version above 3 is
refused. -/
theorem C06_basket_refuses_newer (r : RBuffer) (k : Key) (r1 r2 : RBuffer) (v : Int)
    (hk : Key.unmarshal r = .ok (k, r1)) (h : Rd.i16 r1 = .ok (v, r2)) (hv : 3 < v) :
    Basket.unmarshal r = .error (.err .versionTooHigh) := by
  unfold Basket.unmarshal
  rw [Rd.bind_ok hk, Rd.bind_ok h]
  apply Rd.bind_err
  simp [Rd.ensureMax, rversBasket, hv, Rd.fail]

/-- Maps are outside the claim: their version is not checked, an empty map of any version above 2
is read. -/
theorem C06_map_version_not_checked (fuel : Nat) :
    ∃ m r', factory fuel (b! "TMap") = some m ∧
      m (RBuffer.over 0 [0x40, 0, 0, 18, 0, 99, 0, 1, 0, 0, 0, 0, 2, 0, 0, 0, 0, 0, 0, 0, 0] 0) =
        .ok (.map ⟨0, 0x3000000⟩ (some []) [], r') := by
  exact ⟨_, _, rfl, rfl⟩

end Verif
