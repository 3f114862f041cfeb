import Verif.Spec.AfterClose
import Verif.Lemmas.Opened
/-
Bytes appended to a file change nothing for a reader.
-/
namespace Verif

theorem readAt_append {img e b : List Byte} {pos len : Int} (h : readAt img pos len = .ok b) :
    readAt (img ++ e) pos len = .ok b := by
  unfold readAt at h ⊢
  split at h
  · cases h
  next h0 =>
  split at h
  · cases h
  next h1 =>
  rw [if_neg h0, if_neg h1]
  split at h
  next h2 =>
    rw [if_pos (by rw [List.length_append]; omega)]
    rw [← h, List.drop_append_of_le_length (by omega), List.take_append_of_le_length
      (by rw [List.length_drop]; omega)]
  next h2 =>
    split at h
    next h3 =>
      subst h3
      cases h
      split
      · simp
      · simp
    · cases h

/-- The second result is the first one when that is one. -/
def Res.Below {α} (x y : Res α) : Prop := ∀ a, x = .ok a → y = .ok a

theorem Res.Below.refl {α} (x : Res α) : x.Below x := fun _ h => h

theorem Res.Below.bind {α β} {x y : Res α} {g k : α → Res β} (h : x.Below y)
    (hg : ∀ a, (g a).Below (k a)) : (x >>= g).Below (y >>= k) := by
  intro b hb
  obtain ⟨a, h1, h2⟩ := Res.ok_bind.1 hb
  exact Res.ok_bind.2 ⟨a, h a h1, hg a b h2⟩

theorem Res.Below.unwrap {α} {x y : Res α} (h : x.Below y) : x.unwrap.Below y.unwrap := by
  intro a ha
  cases x with
  | error e => cases ha
  | ok a' => rw [h a' rfl]; exact ha

variable {img e : List Byte}

theorem readAt_below (pos len : Int) : (readAt img pos len).Below (readAt (img ++ e) pos len) :=
  fun _ h => readAt_append h

theorem Key.load_below (dec : Decoders) (k : Key) : (k.load dec img).Below (k.load dec (img ++ e)) := by
  unfold Key.load
  split
  · exact .refl _
  · split
    · split
      · exact .refl _
      · exact (Res.Below.refl _).bind fun _ => (Res.Below.refl _).bind fun _ => (readAt_below _ _).bind fun _ => .refl _
    · exact (Res.Below.refl _).bind fun _ => readAt_below _ _

theorem Key.object_below (dec : Decoders) (fuel : Nat) (k : Key) :
    (k.object dec fuel img).Below (k.object dec fuel (img ++ e)) :=
  (k.load_below dec).bind fun _ => .refl _

theorem readDirInfo_below (h : FileHeader) : (readDirInfo img h).Below (readDirInfo (img ++ e) h) := by
  unfold readDirInfo
  intro d hd
  simp only at hd ⊢
  split at hd
  · cases hd
  next h0 =>
  rw [if_neg h0]
  split at hd
  · cases hd
  next h1 =>
  rw [if_neg h1]
  split at hd
  · cases hd
  next data hr =>
  rw [readAt_append hr]
  exact hd

theorem readFreeSegments_below (dec : Decoders) (h : FileHeader) :
    (readFreeSegments dec img h).Below (readFreeSegments dec (img ++ e) h) :=
  (readAt_below _ _).bind fun _ => (Res.Below.refl _).bind fun k => (k.load_below dec).bind fun _ => .refl _

theorem readStreamerInfo_below (dec : Decoders) (fuel : Nat) (h : FileHeader) :
    (readStreamerInfo dec fuel img h).Below (readStreamerInfo dec fuel (img ++ e) h) := by
  unfold readStreamerInfo
  split
  · exact .refl _
  · exact (readAt_below _ _).bind fun _ => (Res.Below.refl _).bind fun k =>
      (k.object_below dec fuel).bind fun _ => .refl _

theorem readKeys_below (d : Dir) : (readKeys img d).Below (readKeys (img ++ e) d) := by
  unfold readKeys
  split
  · exact .refl _
  · exact (readAt_below _ _).bind fun _ => (Res.Below.refl _).bind fun k => (Res.Below.refl _).bind fun _ =>
      (readAt_below _ _).bind fun _ => .refl _

theorem whenPositive_below {α} (seek : Int) {x y : Res (List α)} (h : x.Below y) :
    (whenPositive seek x).Below (whenPositive seek y) := by
  unfold whenPositive
  split
  · exact h
  · exact .refl _

theorem openFile_append {dec : Decoders} {fuel : Nat} {r : FileR} (h : openFile dec fuel img = .ok r) :
    openFile dec fuel (img ++ e) = .ok { r with img := img ++ e } ∧ r.img = img := by
  unfold openFile at h ⊢
  obtain ⟨buf, h1, h⟩ := Res.ok_bind.1 h
  obtain ⟨hd, h2, h⟩ := Res.ok_bind.1 h
  obtain ⟨d, h3, h⟩ := Res.ok_bind.1 h
  obtain ⟨s, h4, h⟩ := Res.ok_bind.1 h
  obtain ⟨i, h5, h⟩ := Res.ok_bind.1 h
  obtain ⟨k, h6, h⟩ := Res.ok_bind.1 h
  rw [Res.bind_ok (readAt_append h1), Res.bind_ok h2, Res.bind_ok (readDirInfo_below _ _ h3),
    Res.bind_ok (whenPositive_below _ (readFreeSegments_below _ _) _ h4),
    Res.bind_ok (whenPositive_below _ (readStreamerInfo_below _ _ _) _ h5),
    Res.bind_ok (readKeys_below _ _ h6)]
  cases h
  exact ⟨rfl, rfl⟩

/-! ### Columns -/

theorem Slot.read_below (dec : Decoders) (si : List StreamerInfo) (s : Slot) :
    (s.read ⟨dec, img, si⟩).Below (s.read ⟨dec, img ++ e, si⟩) := by
  unfold Slot.read Basket.rawData
  exact (readAt_below _ _).unwrap.bind fun _ => (Res.Below.refl _).bind fun b =>
    ((b.key.load_below dec).unwrap.bind fun _ => .refl _).bind fun _ => .refl _

/-- Two iterators, the items of the second being those of the first when these can be had. -/
inductive ItemsBelow {α} : List (Res α) → List (Res α) → Prop
  | nil : ItemsBelow [] []
  | cons {x y xs ys} : x.Below y → ItemsBelow xs ys → ItemsBelow (x :: xs) (y :: ys)

theorem ItemsBelow.refl {α} (xs : List (Res α)) : ItemsBelow xs xs := by
  induction xs with
  | nil => exact .nil
  | cons x xs ih => exact .cons (.refl x) ih

theorem ItemsBelow.append {α} {xs ys us vs : List (Res α)} (h : ItemsBelow xs ys)
    (h' : ItemsBelow us vs) : ItemsBelow (xs ++ us) (ys ++ vs) := by
  induction h with
  | nil => exact h'
  | cons a b ih => exact .cons a ih

theorem ItemsBelow.ofMap {ι α} (l : List ι) {g k : ι → Res α} (h : ∀ i, (g i).Below (k i)) :
    ItemsBelow (l.map g) (l.map k) := by
  induction l with
  | nil => exact .nil
  | cons i l ih => exact .cons (h i) ih

theorem ItemsBelow.map {α β} {xs ys : List (Res α)} (h : ItemsBelow xs ys) {g : Res α → Res β}
    (hg : ∀ x y : Res α, x.Below y → (g x).Below (g y)) : ItemsBelow (xs.map g) (ys.map g) := by
  induction h with
  | nil => exact .nil
  | cons a _ ih => exact .cons (hg _ _ a) ih

theorem ItemsBelow.collect {α} {xs ys : List (Res α)} (h : ItemsBelow xs ys) :
    (Verif.collect xs).Below (Verif.collect ys) := by
  induction h with
  | nil => exact .refl _
  | cons a _ ih => exact a.bind fun _ => ih.bind fun _ => .refl _

theorem ItemsBelow.eq {α} {xs ys : List (Res α)} (h : ItemsBelow xs ys)
    (hx : ∀ c ∈ xs, ∃ x, c = .ok x) : ys = xs := by
  induction h with
  | nil => rfl
  | @cons x y xs ys a _ ih =>
    obtain ⟨v, rfl⟩ := hx x (List.mem_cons_self ..)
    rw [a v rfl, ih fun c hc => hx c (List.mem_cons_of_mem _ hc)]

theorem BranchData.chunks_below (dec : Decoders) (si : List StreamerInfo) {d : BranchData}
    {cs : List (Res Chunk)} (h : d.chunks ⟨dec, img, si⟩ = .ok cs) :
    ∃ cs', d.chunks ⟨dec, img ++ e, si⟩ = .ok cs' ∧ ItemsBelow cs cs' := by
  unfold BranchData.chunks at h ⊢
  obtain ⟨sl, h1, h⟩ := Res.ok_bind.1 h
  obtain ⟨em, h2, h⟩ := Res.ok_bind.1 h
  cases h
  refine ⟨_, by rw [Res.bind_ok h1, Res.bind_ok h2]; rfl, ?_⟩
  exact (ItemsBelow.refl em).append (.ofMap _ fun s => (s.read_below dec si).bind fun _ => .refl _)

theorem BranchElem.chunks_below (dec : Decoders) (si : List StreamerInfo) {el : BranchElem}
    {d : BranchData} {cs : List (Res Chunk)} (h : el.chunks ⟨dec, img, si⟩ d = .ok cs) :
    ∃ cs', el.chunks ⟨dec, img ++ e, si⟩ d = .ok cs' ∧ ItemsBelow cs cs' := by
  unfold BranchElem.chunks at h ⊢
  obtain ⟨sl, h1, h⟩ := Res.ok_bind.1 h
  obtain ⟨em, h2, h⟩ := Res.ok_bind.1 h
  cases h
  refine ⟨_, by rw [Res.bind_ok h1]; exact (Res.bind_ok h2 :), ?_⟩
  exact (ItemsBelow.refl em).append (.ofMap _ fun s => (s.read_below dec si).bind fun _ => .refl _)

theorem Branch.chunks_below (dec : Decoders) (si : List StreamerInfo) {b : Branch}
    {cs : List (Res Chunk)} (h : b.chunks ⟨dec, img, si⟩ = .ok cs) :
    ∃ cs', b.chunks ⟨dec, img ++ e, si⟩ = .ok cs' ∧ ItemsBelow cs cs' := by
  unfold Branch.chunks at h ⊢
  split at h
  · exact BranchData.chunks_below dec si h
  · exact BranchElem.chunks_below dec si h

theorem subChunks_below (dec : Decoders) (si : List StreamerInfo) {bs : List Branch}
    {its : List (List (Res Chunk))} (hw : ∀ sub ∈ bs, ∀ cs, sub.data.chunks ⟨dec, img, si⟩ = .ok cs →
      ∀ c ∈ cs, ∃ x, c = .ok x) (h : subChunks ⟨dec, img, si⟩ bs = .ok its) :
    subChunks ⟨dec, img ++ e, si⟩ bs = .ok its := by
  induction bs generalizing its with
  | nil => exact h
  | cons b bs ih =>
    unfold subChunks at h ⊢
    rw [List.map_cons] at h ⊢
    unfold Verif.collect at h ⊢
    obtain ⟨cs, h1, h⟩ := Res.ok_bind.1 h
    obtain ⟨rest, h2, h⟩ := Res.ok_bind.1 h
    obtain ⟨cs', h3, h4⟩ := BranchData.chunks_below (e := e) dec si h1
    rw [h4.eq (hw b (List.mem_cons_self ..) cs h1)] at h3
    have h5 := ih (fun s hs => hw s (List.mem_cons_of_mem _ hs)) h2
    unfold subChunks at h5
    rw [Res.bind_ok h3, Res.bind_ok h5]
    exact h

theorem Branch.getBasket_append {α} {dec : Decoders} {si : List StreamerInfo} {b : Branch}
    {func : Rd α} {vals : List α} (hw : b.Whole ⟨dec, img, si⟩)
    (h : b.getBasket ⟨dec, img, si⟩ func = .ok vals) :
    b.getBasket ⟨dec, img ++ e, si⟩ func = .ok vals := by
  unfold Branch.getBasket at h ⊢
  unfold Branch.Whole at hw
  generalize b.branches = bs at h hw
  cases bs with
  | nil =>
    simp only at h ⊢
    obtain ⟨cs, h1, h⟩ := Res.ok_bind.1 h
    obtain ⟨vs, h2, h⟩ := Res.ok_bind.1 h
    obtain ⟨cs', h3, h4⟩ := Branch.chunks_below (e := e) dec si h1
    rw [Res.bind_ok h3, Res.bind_ok ((h4.map fun x y hxy => hxy.bind fun _ => .refl _).collect vs h2)]
    exact h
  | cons s bs =>
    simp only at h ⊢
    obtain ⟨its, h1, h⟩ := Res.ok_bind.1 h
    rw [Res.bind_ok (subChunks_below dec si hw h1)]
    exact h

theorem BranchElem.streamer_img (dec : Decoders) (si : List StreamerInfo) (el : BranchElem) (n : Str) :
    el.streamer ⟨dec, img ++ e, si⟩ n = el.streamer ⟨dec, img, si⟩ n := rfl

theorem Branch.itemTypeName_img (dec : Decoders) (si : List StreamerInfo) (top : Bool) (b : Branch) :
    b.itemTypeName ⟨dec, img ++ e, si⟩ top = b.itemTypeName ⟨dec, img, si⟩ top := rfl

theorem Branch.asIter_append {α} {dec : Decoders} {si : List StreamerInfo} {b : Branch} {top : Bool}
    {names : Option (List Str)} {func : Rd α} {vals : List α} (hw : b.Whole ⟨dec, img, si⟩)
    (h : b.asIter ⟨dec, img, si⟩ top names func = .ok vals) :
    b.asIter ⟨dec, img ++ e, si⟩ top names func = .ok vals := by
  unfold Branch.asIter at h ⊢
  cases names with
  | none => exact Branch.getBasket_append hw h
  | some tys =>
    simp only at h ⊢
    obtain ⟨n, h1, h⟩ := Res.ok_bind.1 h
    rw [Branch.itemTypeName_img, Res.bind_ok h1]
    obtain ⟨ok, h2, h⟩ := Res.ok_bind.1 h
    rw [Res.bind_ok h2]
    split at h
    next hok => rw [if_pos hok]; exact Branch.getBasket_append hw h
    · cases h

/-- Appending bytes changes nothing for a reader. -/
theorem stillReads_append (dec : Decoders) (img e : List Byte) : StillReads dec img (img ++ e) := by
  intro fuel r h
  obtain ⟨h1, h2⟩ := openFile_append (e := e) h
  subst h2
  have ho : ∀ name o, r.getObject dec fuel name = .ok o →
      FileR.getObject dec fuel { r with img := r.img ++ e } name = .ok o := by
    intro name o h
    unfold FileR.getObject at h ⊢
    obtain ⟨k, h3, h⟩ := Res.ok_bind.1 h
    exact Res.ok_bind.2 ⟨k, h3, k.object_below dec fuel o h⟩
  refine ⟨_, h1, rfl, rfl, ho, ?_, fun b top names α func vals hw h => Branch.asIter_append hw h⟩
  intro name t h
  unfold FileR.getTree at h ⊢
  obtain ⟨o, h3, h⟩ := Res.ok_bind.1 h
  exact Res.ok_bind.2 ⟨o, ho name o h3, h⟩

end Verif
