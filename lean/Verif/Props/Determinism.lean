import Verif.Spec.Determinism
import Verif.Lemmas.Determinism
import Verif.Props.Total
/-
C65: what is written depends on nothing but what the user gives.
-/
namespace Verif

theorem Same.writeTrees {δ B : Nat} {env env' : Env} (h : env'.db = env.db) : ∀ {ts ts' : List TreeIn},
    ts'.map TreeIn.content = ts.map TreeIn.content → (∀ t ∈ ts, t.Placed) → (∀ t ∈ ts', t.Placed) →
    Same δ B (Verif.writeTrees env ts) (Verif.writeTrees env' ts')
  | [], [], _, _, _ => of (.pure _)
  | t :: ts, t' :: ts', hc, hp, hp' => by
    rw [List.map_cons, List.map_cons] at hc
    injection hc with h1 h2
    unfold TreeIn.content at h1
    injection h1 with h3 h4
    injection h4 with h4 h5
    obtain ⟨a1, a2⟩ := hp t (List.mem_cons_self ..)
    obtain ⟨b1, b2⟩ := hp' t' (List.mem_cons_self ..)
    unfold Verif.writeTrees
    rw [h3, h4, h5]
    refine bindOk (of (.lift _)) fun w ⟨f, f', hw⟩ => ?_
    have hl := buildTree_length (Fs.ok_lift.1 hw).1
    exact bind (write h ⟨a1, by rw [hl]; exact a2⟩ ⟨b1, by rw [hl]; exact h5 ▸ b2⟩) fun _ =>
      Same.writeTrees h h2 (fun t ht => hp t (List.mem_cons_of_mem _ ht)) (fun t ht => hp' t (List.mem_cons_of_mem _ ht))

theorem Same.writeFile {δ B : Nat} {env env' : Env} (h : env'.db = env.db) {ts ts' : List TreeIn}
    (hc : ts'.map TreeIn.content = ts.map TreeIn.content) (hp : ∀ t ∈ ts, t.Placed) (hp' : ∀ t ∈ ts', t.Placed)
    (ha : env.Apart B) (ha' : env'.Apart (B + δ)) : Same δ B (Verif.writeFile env ts) (Verif.writeFile env' ts') :=
  bind (of .createFile) fun _ => bind (Same.writeTrees h hc hp hp') fun _ =>
    closeFile h ha.different ha'.different ha.apart ha'.apart

/-! ### The counter does not depend on the addresses -/

/-- What is done until all the class records are known. -/
def writeFileHead (env : Env) (ts : List TreeIn) : Fs Unit := do
  createFile
  writeTrees env ts
  let f ← Fs.get
  let d ← saveKeys f.dir
  let d ← writeDirHeader d
  Fs.modify fun f => { f with dir := d }
  findDeepStreamer env

/-- What is done then. -/
def writeFileTail (env : Env) : Fs Unit := do
  let f ← Fs.get
  if f.header.seekInfo ≠ 0 then Fs.panic
  else
    let key ← Key.new (b! "StreamerInfo") listTitle (b! "TList") 0
    let buf ← Fs.marshal key.keyLen
      (TList.marshal TObject.default none (placedInfos env 0 f.sinfos))
    let key ← Key.newFromBuffer (b! "StreamerInfo") listTitle (b! "TList") 1 buf
    Fs.modify fun f => { f with
      header := { f.header with seekInfo := key.seekKey, nBytesInfo := key.nBytes } }
    Key.writeToFile key

theorem writeFile_split (env : Env) (ts : List TreeIn) :
    writeFile env ts = writeFileHead env ts >>= fun _ => writeFileTail env >>= fun _ => writeFreeSegments >>= fun _ => writeHeader := by
  unfold writeFile writeFileHead closeFile writeStreamerInfo
  simp only [Fs.assoc]
  rfl

theorem ids_kept {α β} {m : Fs α} {k : α → Fs β} (h : ∀ a f, (k a f).2.ids = f.ids) (f : FileW) :
    ((m >>= k) f).2.ids = (m f).2.ids := by
  show (Fs.next (m f) k).2.ids = _
  rcases m f with ⟨_ | a, f'⟩
  · rfl
  · exact h a f'

theorem writeFileTail_ids (env : Env) (f : FileW) : (writeFileTail env f).2.ids = f.ids := by
  unfold writeFileTail
  refine Eq.trans (ids_kept (fun g f => (Blind.keeps ?_ f).2) f) rfl
  exact .ite .panic (.bind (.keyNew _ _ _ _) fun _ => .bind (.marshal _ _) fun _ => .bind (.newFromBuffer _ _ _ _ _) fun _ =>
    .bind (.modify fun _ _ _ => rfl) fun _ => .keyToFile _)

theorem writeFile_ids (env : Env) (ts : List TreeIn) (f : FileW) :
    (writeFile env ts f).2.ids = (writeFileHead env ts f).2.ids := by
  rw [writeFile_split]
  refine ids_kept (fun _ f => ?_) f
  rw [ids_kept (fun _ f => ?_) f, writeFileTail_ids]
  rw [ids_kept (fun _ f => (Blind.writeHeader.keeps f).2) f, (Blind.writeFreeSegments.keeps f).2]

theorem Same.head {δ B : Nat} {env env' : Env} (h : env'.db = env.db) {ts ts' : List TreeIn}
    (hc : ts'.map TreeIn.content = ts.map TreeIn.content) (hp : ∀ t ∈ ts, t.Placed) (hp' : ∀ t ∈ ts', t.Placed) :
    Same δ B (writeFileHead env ts) (writeFileHead env' ts') :=
  bind (of .createFile) fun _ => bind (Same.writeTrees h hc hp hp') fun _ => getBind (fun _ _ _ => rfl) fun _ =>
    bind (of (.saveKeys _)) fun _ => bind (of (.writeDirHeader _)) fun _ => bind (of (.modify fun _ _ _ => rfl)) fun _ =>
    findDeep h

theorem writeFile_same {env env' : Env} (h : env'.db = env.db) {ts ts' : List TreeIn}
    (hc : ts'.map TreeIn.content = ts.map TreeIn.content) (hp : ∀ t ∈ ts, t.Placed) (hp' : ∀ t ∈ ts', t.Placed)
    {path : Str} {ids δ : Nat} (ha : env.Apart (writeFile env ts (FileW.initial path ids)).2.ids)
    (ha' : env'.Apart (writeFile env' ts' (FileW.initial path (ids + δ))).2.ids) :
    writeFile env' ts' (FileW.initial path (ids + δ)) =
      ((writeFile env ts (FileW.initial path ids)).1, (writeFile env ts (FileW.initial path ids)).2.shift δ) := by
  have hlow : (FileW.initial path ids).Low := fun s hs => by cases hs
  have hids : (writeFile env' ts' (FileW.initial path (ids + δ))).2.ids =
      (writeFile env ts (FileW.initial path ids)).2.ids + δ := by
    rw [writeFile_ids, writeFile_ids]
    have h1 := ((Same.head (δ := δ) h hc hp hp').same (FileW.initial path ids) hlow (Nat.le_refl _)).1
    have h2 : writeFileHead env' ts' (FileW.initial path (ids + δ)) = _ := h1
    rw [h2]
    rfl
  rw [hids] at ha'
  exact ((Same.writeFile h hc hp hp' ha ha').same (FileW.initial path ids) hlow (Nat.le_refl _)).1

/-! ### The property -/

/-- C65: a program that creates a file, writes trees to it and closes it does the same in every process:
it succeeds or fails in the same way, and issues the same writes with the same bytes in the same order.  Where
the branches and class records are in memory does not matter, nor what the process did before (which numbers its
class records get). -/
theorem C65_deterministic {env env' : Env} (h : env'.db = env.db) {ts ts' : List TreeIn}
    (hc : ts'.map TreeIn.content = ts.map TreeIn.content) (hp : ∀ t ∈ ts, t.Placed) (hp' : ∀ t ∈ ts', t.Placed)
    {path : Str} {ids ids' : Nat} (ha : env.Apart (writeFile env ts (FileW.initial path ids)).2.ids)
    (ha' : env'.Apart (writeFile env' ts' (FileW.initial path ids')).2.ids) :
    (writeFile env' ts' (FileW.initial path ids')).1 = (writeFile env ts (FileW.initial path ids)).1 ∧
      (writeFile env' ts' (FileW.initial path ids')).2.trace = (writeFile env ts (FileW.initial path ids)).2.trace := by
  rcases Nat.le_total ids ids' with hle | hle
  · obtain ⟨δ, rfl⟩ := Nat.exists_eq_add_of_le hle
    rw [writeFile_same h hc hp hp' ha ha']
    exact ⟨rfl, rfl⟩
  · obtain ⟨δ, rfl⟩ := Nat.exists_eq_add_of_le hle
    rw [writeFile_same h.symm hc.symm hp' hp ha' ha]
    exact ⟨rfl, rfl⟩

section
attribute [local irreducible] bundledList bundledRecords bundledDb allRecords treeRecords tTreeRecord vectorRecords

/-- C65: with the bundled dictionary, in whatever order the hash map of a process keeps its records, trees
that can be stored (C50) make the same file in every process. -/
theorem C65_bundled {rs rs1 rs2 : List StreamerInfo} (hr : bundledRecords = .ok rs) (hp1 : rs1.Perm rs) (hp2 : rs2.Perm rs)
    {addr1 addr2 : Nat → Nat} (ha1 : ∀ i j, addr1 i = addr1 j → i = j) (ha2 : ∀ i j, addr2 i = addr2 j → i = j)
    {ids1 ids2 : Nat} (hm1 : ∀ j, ids1 + 20000000 ≤ addr1 j) (hm2 : ∀ j, ids2 + 20000000 ≤ addr2 j)
    {path : Str} (htext : utf8 path = true) (hpath : path.length ≤ 478) {ts1 ts2 : List TreeIn} (hs1 : Storables ts1)
    (hs2 : Storables ts2) (hc : ts2.map TreeIn.content = ts1.map TreeIn.content) :
    ∃ f1 f2, writeFile { db := findRecord rs1, addr := addr1 } ts1 (FileW.initial path ids1) = (.ok (), f1) ∧
      writeFile { db := findRecord rs2, addr := addr2 } ts2 (FileW.initial path ids2) = (.ok (), f2) ∧
      image f2.trace = image f1.trace := by
  have e : ∀ {rs' : List StreamerInfo} (addr : Nat → Nat), rs'.Perm rs →
      ({ db := findRecord rs', addr := addr } : Env) = bundledEnv addr := by
    intro rs' addr hp
    have : findRecord rs' = bundledDb := by
      funext n v
      exact C48_order n v hr hp
    rw [this]
    rfl
  rw [e addr1 hp1, e addr2 hp2]
  obtain ⟨-, -, f1, h1, -, ⟨a1, -⟩, -⟩ := writeFile_session ha1 hm1 htext hpath hs1
  obtain ⟨-, -, f2, h2, -, ⟨a2, -⟩, -⟩ := writeFile_session ha2 hm2 htext hpath hs2
  refine ⟨f1, f2, h1, h2, ?_⟩
  have h := C65_deterministic (env := bundledEnv addr1) (env' := bundledEnv addr2) rfl hc
    (fun t ht => ⟨(hs1.each t ht).memory, (hs1.each t ht).distinct⟩)
    (fun t ht => ⟨(hs2.each t ht).memory, (hs2.each t ht).distinct⟩) (path := path) (ids := ids1) (ids' := ids2)
    ⟨ha1, by rw [h1]; exact a1⟩ ⟨ha2, by rw [h2]; exact a2⟩
  rw [h1, h2] at h
  rw [h.2]

end

/-! ### The hypotheses can be met -/

/-- The trees of the example at other places. -/
def demoTreesMoved : List TreeIn := demoTrees.map fun t => { t with places := fun i => (7000 - 10 * i, [8000 + 3 * i]) }

theorem demoTreesMoved_placed : ∀ t ∈ demoTreesMoved, t.Placed := by
  intro t ht
  simp only [demoTreesMoved, demoTrees, List.map_cons, List.map_nil, List.mem_cons, List.not_mem_nil, or_false] at ht
  rcases ht with rfl | rfl | rfl <;> exact ⟨fun _ => rfl, by decide⟩

theorem demoTreesMoved_storable : Storables demoTreesMoved := by
  refine ⟨fun t ht => ?_, by decide, by decide⟩
  obtain ⟨u, hu, rfl⟩ := List.mem_map.1 ht
  obtain ⟨h1, h2⟩ := demoTreesMoved_placed _ ht
  obtain ⟨a, b, c, d, e, -, -⟩ := demoTrees_storable.each u hu
  exact ⟨a, b, c, d, e, h1, h2⟩

example : Storables demoTreesMoved ∧ Storables demoTrees ∧
    demoTreesMoved.map TreeIn.content = demoTrees.map TreeIn.content ∧
    (demoTreesMoved.map fun t => t.places 1) ≠ demoTrees.map fun t => t.places 1 :=
  ⟨demoTreesMoved_storable, demoTrees_storable, rfl, by decide⟩

end Verif
