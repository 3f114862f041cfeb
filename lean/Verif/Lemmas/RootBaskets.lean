import Verif.Lemmas.SetMap
import Verif.Spec.RootBaskets
import Verif.Props.Storage
/-
Reading the baskets of ROOT.
-/
namespace Verif

/-- The basket as the library keeps it. -/
def RootBasket.asBasket (b : RootBasket) : Basket :=
  { key := b.key, rvers := b.vers, bufSize := b.bufSize, nevSize := b.nevSize, nevBuf := b.entries.length,
    last := b.key.keyLen + b.entries.flatten.length }

theorem RootBasket.head_eq (b : RootBasket) : b.head = b.key.enc b.date ++ b.asBasket.tail := by
  unfold RootBasket.head Basket.tail rootKey Key.enc encSeek
  dsimp only [asBasket]
  by_cases h : 1000 < b.key.rvers <;> simp only [h, if_true, if_false, decide_true, decide_false, Bool.false_eq_true] <;> rfl

/-- The basket a reader makes of it. -/
def RootBasket.afterRead (b : RootBasket) : Basket :=
  { key := b.key.afterRead b.date, nevBuf := b.entries.length, last := b.key.keyLen + b.entries.flatten.length
    nevSize := b.nevSize
    bufSize := if b.bufSize < b.key.keyLen + b.entries.flatten.length then b.key.keyLen + b.entries.flatten.length else b.bufSize }

theorem bounds_eq (n : Nat) (es : List (List Byte)) :
    bounds n es = (starts n es).map (fun (s : Nat) => (s : Int)) ++ [((n + es.flatten.length : Nat) : Int)] := by
  induction es generalizing n with
  | nil => simp [bounds, starts]
  | cons e es ih => simp [bounds, starts, ih, Nat.add_assoc]

theorem RootBasket.payload_eq (b : RootBasket) : b.payload = b.entries.flatten ++ if b.table then
    encI 4 (b.entries.length + 1) ++ ((starts 0 b.entries).flatMap (fun (s : Nat) => encI 4 ((s : Int) + b.key.keyLen)) ++
      encI 4 b.unused) else [] := by
  unfold RootBasket.payload
  rw [bounds_eq, List.dropLast_concat, List.flatMap_map]
  rfl

theorem RootBasket.payload_length (b : RootBasket) : b.payload.length = b.entries.flatten.length +
    if b.table then 8 + 4 * b.entries.length else 0 := by
  have : ∀ ss : List Nat, (ss.flatMap (fun (s : Nat) => encI 4 ((s : Int) + b.key.keyLen))).length = 4 * ss.length := by
    intro ss
    induction ss with
    | nil => rfl
    | cons s ss ih => rw [List.flatMap_cons, List.length_append, ih, encI_length, List.length_cons]; omega
  rw [b.payload_eq]
  cases b.table
  · simp
  · simp only [if_true, List.length_append, encI_length, this, starts_length]
    omega

theorem offsetWords_last {k u : Int} (ss : List Nat) (hs : ∀ s ∈ ss, InI 4 ((s : Int) + k) ∧ InI 4 (s : Int))
    (h0 : InI 4 u) (h1 : InI 4 (u - k)) :
    offsetWords k (ss.flatMap (fun (s : Nat) => encI 4 ((s : Int) + k)) ++ encI 4 u) =
      .ok (ss.map (fun (s : Nat) => (s : Int)) ++ [u - k]) := by
  induction ss with
  | nil =>
    have := offsetWords_cons (k := k) (v := u) h0 h1 []
    rw [List.append_nil] at this
    simp only [List.flatMap_nil, List.nil_append, this]
    simp [offsetWords, bind, Except.bind, pure, Except.pure]
  | cons s ss ih =>
    have hs1 := hs s (List.mem_cons_self ..)
    rw [List.flatMap_cons, List.append_assoc, offsetWords_cons hs1.1 (by
      rw [Int.add_sub_cancel]; exact hs1.2), ih fun x hx => hs x (List.mem_cons_of_mem _ hx)]
    simp [bind, Except.bind, pure, Except.pure]

/-- What the data of the basket are. -/
def RootBasket.data (b : RootBasket) : BasketData :=
  if b.table then .unTrust b.entries.length b.entries.flatten (bounds 0 b.entries)
  else .trust b.entries.length b.entries.flatten

theorem RootBasket.head_length (b : RootBasket) : 26 ≤ b.head.length := by
  rw [b.head_eq]
  unfold Key.enc
  simp only [List.length_append, encI_length, beBytes_length, Basket.tail_length]
  omega

theorem RootBasket.In.bytes_pos {b : RootBasket} {r : Reader} (h : b.In r) : 0 < b.key.nBytes := by
  have := b.head_length
  rw [h.1.nBytes]
  unfold RootBasket.record
  rw [List.length_append]
  omega

/-- Reading a basket. -/
theorem RootBasket.In.read {b : RootBasket} {r : Reader} (h : b.In r) (size : Int) (leaf : Leaf) :
    Slot.read r ⟨b.key.seekKey, b.key.nBytes, size, leaf⟩ = .ok (b.afterRead, b.data) := by
  obtain ⟨h, hst⟩ := h
  have hst : Stored r.img b.key.seekKey.toNat b.record := hst
  have h26 := b.head_length
  have hfits := h.fits
  have hkl := h.keyLen
  have hol := h.objLen
  have hnb := h.nBytes
  have hsk := h.seekKey
  have hpl := b.payload_length
  have hread := readAt_stored hsk hnb hst
  have hreads : Reads Basket.unmarshal b.head b.afterRead := by
    rw [b.head_eq]
    unfold Basket.unmarshal Basket.tail
    refine Reads.bind (Key.reads h.key h.date) ?_
    refine Reads.bind (a := b.vers) (Reads.sint (by decide) h.vers.1) ?_
    refine Reads.bind (b1 := []) (a := ()) ?_ ?_
    · rw [Rd.ensureMax_eq (by have := h.vers.2; exact this)]; exact Reads.pure ()
    refine Reads.bind (Reads.sint (by decide) h.bufSize) ?_
    refine Reads.bind (Reads.sint (by decide) h.nevSize.1) ?_
    dsimp only
    rw [if_neg (by have := h.nevSize.2; show ¬ b.nevSize < 0; omega)]
    refine Reads.bind (Reads.sint (by decide) (by have := h.count; show InI 4 (b.entries.length : Int); exact inI4_of (by omega) (by omega))) ?_
    refine Reads.bind (Reads.sint (by decide) (by show InI 4 (b.key.keyLen + b.entries.flatten.length); exact inI4_of (by omega) (by omega))) ?_
    refine (Reads.bind (b2 := []) (a := 0) (Reads.uint (k := 1) (v := 0) (by decide)) ?_).congr
      (List.append_nil _)
    exact Reads.pure _
  unfold Slot.read
  simp only [hread, Res.unwrap, bind, Except.bind, readWith_reads hreads (show b.record = b.head ++ _ from rfl)]
  have hkey : b.afterRead.key = { b.key with datetime := b.date, left := 0, buffer := [] } := rfl
  have hstored := (Stored.append.1 hst).2
  have hpos : (b.key.seekKey + b.key.keyLen).toNat = b.key.seekKey.toNat + b.head.length := by omega
  rw [← hpos] at hstored
  have hsane : b.key.Sane := h.key.sane h.seekKey (by omega) (by
    have := h.nBytes
    unfold RootBasket.record at this
    rw [List.length_append] at this
    omega)
  have hload : b.afterRead.key.load r.dec r.img = .ok b.payload := by
    rw [Key.load_sane (k := b.afterRead.key) ⟨hsane.seek, hsane.seek', hsane.keyLen, hsane.room, hsane.nBytes⟩]
    unfold Key.isCompressed
    rw [hkey]
    dsimp only
    cases hz : b.block with
    | none =>
      rw [hz] at hstored
      have hrec : b.record.length = b.head.length + b.payload.length := by
        unfold RootBasket.record; rw [hz, List.length_append]
      rw [if_neg (by simp only [decide_eq_true_eq, ne_eq, Classical.not_not]; omega)]
      exact readAt_stored (by omega) hol hstored
    | some z =>
      rw [hz] at hstored
      have hrec : b.record.length = b.head.length + z.bytes.length := by
        unfold RootBasket.record; rw [hz, List.length_append]
      obtain ⟨hd, hp, hne⟩ := h.block z hz
      rw [if_pos (by simp only [decide_eq_true_eq, ne_eq]; omega), if_neg (by omega),
        readAt_stored (data := z.bytes) (by omega) (by omega) hstored]
      dsimp only
      rw [hol, Int.toNat_natCast, ← hp]
      exact C34_single_partial hd
  have hraw : b.afterRead.rawData r.dec r.img = .ok b.data := by
    unfold Basket.rawData
    simp only [hload, Res.unwrap, bind, Except.bind]
    have e1 : b.afterRead.key.keyLen = b.key.keyLen := rfl
    have e2 : b.afterRead.key.objLen = b.key.objLen := rfl
    have e3 : b.afterRead.last = b.key.keyLen + b.entries.flatten.length := rfl
    have e4 : b.afterRead.nevBuf = b.entries.length := rfl
    have hb : i32Sub (b.key.keyLen + b.entries.flatten.length) b.key.keyLen = .ok (b.entries.flatten.length : Int) := by
      unfold i32Sub
      rw [Int.add_comm, Int.add_sub_cancel, if_pos (inI4_of (by omega) (by omega))]
    simp only [e1, e2, e3, e4, hb]
    cases ht : b.table with
    | false =>
      rw [ht] at hpl
      simp only [if_neg (Bool.false_ne_true), Nat.add_zero] at hpl
      rw [if_neg (by simp only [ne_eq, Classical.not_not]; omega)]
      have hpe := b.payload_eq
      rw [ht, if_neg (Bool.false_ne_true), List.append_nil] at hpe
      unfold RootBasket.data
      rw [ht, hpe]
      rfl
    | true =>
      rw [ht] at hpl
      simp only [if_true] at hpl
      rw [if_pos (by omega), if_neg (by omega)]
      have hpe := b.payload_eq
      rw [ht, if_pos rfl] at hpe
      obtain ⟨hu1, hu2⟩ := h.unused ht
      rw [Int.toNat_natCast, hpe, List.take_left, List.drop_left,
        offsetWords_cons (inI4_of (by omega) (by omega)) (inI4_of (by omega) (by omega)),
        offsetWords_last _ (fun s hs => by
          have := starts_le s hs
          exact ⟨inI4_of (by omega) (by omega), inI4_of (by omega) (by omega)⟩) hu1 hu2]
      unfold RootBasket.data
      rw [ht, bounds_eq]
      simp [bind, Except.bind, pure, Except.pure]
  rw [hraw]
  rfl

/-! ### Branches -/

theorem slots_of {α} {d : BranchData} {bs : List α} {f g : α → Int} {l : Leaf} (hl : d.leaves = [l])
    (hs : d.basketSeek = bs.map f) (hb : d.basketBytes = bs.map g) (hpos : ∀ x ∈ bs, 0 < g x) :
    d.slots = .ok (bs.map fun x => ⟨f x, g x, l.tleaf.etype, l⟩) := by
  have := slots_done (d := d) (done := bs.map fun x => { seek := f x, bytes := g x, es := [] }) hl
    (by rw [hs, List.map_map]; rfl) (by rw [hb, List.map_map]; rfl) (by
      intro x hx
      obtain ⟨y, hy, rfl⟩ := List.mem_map.1 hx
      exact hpos y hy)
  rw [this, List.map_map]
  rfl

theorem Lists.slots {r : Reader} {d : BranchData} {l : Leaf} {bs : List RootBasket} (h : Lists r d l bs) :
    d.slots = .ok (bs.map fun b => ⟨b.key.seekKey, b.key.nBytes, l.tleaf.etype, l⟩) :=
  slots_of h.leaf h.seek h.bytes fun b hb => (h.there b hb).bytes_pos

/-- What a chunk gives. -/
def ChunkGives {α} (func : Rd α) (c : Res Chunk) (vs : List α) : Prop := ∃ c', c = .ok c' ∧ c'.items func = .ok vs

theorem getBasket_gives {α} {r : Reader} {func : Rd α} {b : Branch} (hb : b.branches = [])
    {cs : List (Res Chunk)} (hc : b.chunks r = .ok cs) {groups : List (List α)} (h : Alike (ChunkGives func) cs groups) :
    b.getBasket r func = .ok groups.flatten := by
  have h1 : collect (cs.map fun c => do let c ← c; c.items func) = .ok (groups.map id) := collect_zip h.1 fun i c g hc hg => by
    obtain ⟨c', rfl, h2⟩ := h.2 i c g hc hg
    exact h2
  unfold Branch.getBasket
  rw [hb]
  simp only [hc, bind, Except.bind] at h1 ⊢
  rw [h1, List.map_id]
  rfl

/-- The chunks of a branch with these baskets. -/
theorem Lists.chunks {r : Reader} {b : Branch} {l : Leaf} {bs : List RootBasket} (h : Lists r b.data l bs) :
    b.chunks r = (match b.elem with
      | none => embeddedBase b.data.baskets
      | some e => embeddedElement (e.header r b.data.named.name) b.data.baskets) >>= fun emb =>
      .ok (emb ++ bs.map fun x => match b.elem with
        | none => x.data.chunk b.data.entries l (l.sized l.tleaf.etype x.nevSize)
        | some e => x.data.chunkElement (e.header r b.data.named.name) l (l.sized l.tleaf.etype x.nevSize)) := by
  unfold Branch.chunks
  cases he : b.elem with
  | none =>
    unfold BranchData.chunks
    rw [h.slots]
    dsimp only
    show (embeddedBase b.data.baskets >>= fun emb => _) = _
    congr 1
    funext emb
    show Except.ok _ = _
    congr 2
    rw [List.map_map]
    refine List.map_congr_left fun x hx => ?_
    simp only [Function.comp_apply, (h.there x hx).read, bind, Except.bind]
    rfl
  | some e =>
    unfold BranchElem.chunks
    rw [h.slots]
    dsimp only
    show (embeddedElement _ b.data.baskets >>= fun emb => _) = _
    congr 1
    funext emb
    show Except.ok _ = _
    congr 2
    rw [List.map_map]
    refine List.map_congr_left fun x hx => ?_
    simp only [Function.comp_apply, (h.there x hx).read, bind, Except.bind]
    rfl

theorem Alike.map_left {α β γ} {R : γ → β → Prop} {f : α → γ} {as : List α} {bs : List β}
    (h : Alike (fun a b => R (f a) b) as bs) : Alike R (as.map f) bs := by
  refine ⟨by rw [List.length_map]; exact h.1, fun i c b hc hb => ?_⟩
  rw [List.getElem?_map] at hc
  cases ha : as[i]? with
  | none => rw [ha] at hc; cases hc
  | some a =>
    rw [ha] at hc
    cases hc
    exact h.2 i a b ha hb

theorem gives_regular {t : Ty} {vs : List t.Val} (hok : ∀ v ∈ vs, t.Ok v) {n : Int} (hn : n = vs.length) (size : Int) :
    ChunkGives t.unmarshal (.ok (.regular n size (vs.map (marshalled t)).flatten)) vs := by
  refine ⟨_, rfl, ?_⟩
  have he : (vs.map (marshalled t)).flatten = vs.flatMap t.enc := by
    rw [List.flatMap_def]
    congr 1
    exact List.map_congr_left fun v hv => marshalled_eq (hok v hv)
  unfold Chunk.items
  dsimp only
  rw [if_neg (by omega), he, hn, Int.toNat_natCast,
    readWith_reads (Reads.times fun v hv => t.reads_unmarshal v (hok v hv)) (List.append_nil _).symm]
  rfl

theorem vec_reads {t : Ty} {hdr : List Byte} {l : List t.Val} (hh : IsHeader hdr)
    (hl : l.length < 2 ^ 31) (hv : ∀ v ∈ l, t.Ok v) :
    ReadsE (· = some (hdr.length : Int)) (fun _ => True) (Ty.vec t).unmarshal (hdr ++ countedBytes t l) l := by
  unfold countedBytes
  rw [flatMap_congr' fun v hv' => marshalled_eq (hv v hv')]
  refine ReadsE.bind (m := Rd.doSkipHeader) (ReadsE.header hh fun _ h => h) ?_
  refine ReadsE.bind ((Reads.i32_ofNat hl).free (SkipFree.sint 4)) ?_
  rw [if_neg (by omega)]
  refine (ReadsE.bind (b1 := []) (ReadsE.setSkip none) ?_).congr (List.nil_append _)
  exact (Reads.times fun a ha => t.reads_unmarshal a (hv a ha)).toE (Q := fun _ => True) trivial

theorem gives_vectors {t : Ty} {h : Nat} {ps : List (List Byte × List t.Val)}
    (hok : ∀ p ∈ ps, IsHeader p.1 ∧ p.1.length = h ∧ p.2.length < 2 ^ 31 ∧ ∀ v ∈ p.2, t.Ok v) (n : Int) :
    ChunkGives (Ty.vec t).unmarshal (.ok (.irregular n (ps.map fun p => p.1 ++ countedBytes t p.2) h)) (ps.map Prod.snd) := by
  refine ⟨_, rfl, ?_⟩
  unfold Chunk.items
  dsimp only
  rw [List.map_map]
  refine collect_map fun p hp => ?_
  obtain ⟨h1, h2, h3, h4⟩ := hok p hp
  have := readWith_skip (rest := []) (vec_reads h1 h3 h4)
  rw [List.append_nil, h2] at this
  simp only [Function.comp_apply, this]
  rfl

/-! ### The basket in the record -/

/-- The basket a reader makes of it. -/
def KeptBasket.afterRead (b : KeptBasket) : Basket :=
  { key := { b.key.afterRead b.date with buffer := b.front ++ b.entries.flatten }, nevBuf := b.entries.length,
    last := b.key.keyLen + b.entries.flatten.length, nevSize := b.nevSize
    bufSize := if b.bufSize < b.key.keyLen + b.entries.flatten.length then b.key.keyLen + b.entries.flatten.length else b.bufSize
    offsets := if b.table ∧ b.entries ≠ [] then (starts 0 b.entries).map (fun (s : Nat) => (s : Int) + b.key.keyLen) else [] }

theorem KeptBasket.reads {b : KeptBasket} (h : b.Ok) : Reads Basket.unmarshal b.record b.afterRead := by
  have hfits := h.fits
  have hfront := h.front
  have hcount := h.count
  have hkeyrec : rootKey b.key b.date = b.key.enc b.date := by
    unfold rootKey Key.enc encSeek
    by_cases h : 1000 < b.key.rvers <;> simp only [h, if_true, if_false, decide_true, decide_false, Bool.false_eq_true] <;> rfl
  have hpos : (bounds 0 b.entries).dropLast.flatMap (fun s => bigEndian 4 (s + b.key.keyLen)) =
      ((starts 0 b.entries).map (fun (s : Nat) => (s : Int) + b.key.keyLen)).flatMap (encI 4) := by
    rw [bounds_eq, List.dropLast_concat, List.flatMap_map, List.flatMap_map]
    rfl
  unfold KeptBasket.record Basket.unmarshal
  rw [hkeyrec, hpos]
  refine Reads.bind (Key.reads h.key h.date) ?_
  refine Reads.bind (a := b.vers) (Reads.sint (by decide) h.vers.1) ?_
  refine (Reads.bind (b1 := []) (a := ()) ?_ ?_).congr (List.nil_append _)
  · rw [Rd.ensureMax_eq (by have := h.vers.2.2; exact this)]; exact Reads.pure ()
  refine Reads.bind (Reads.sint (by decide) h.bufSize) ?_
  refine Reads.bind (Reads.sint (by decide) h.nevSize.1) ?_
  rw [if_neg (by have := h.nevSize.2; omega)]
  refine Reads.bind (Reads.sint (k := 4) (v := (b.entries.length : Int)) (by decide) (inI4_of (by omega) (by omega))) ?_
  refine Reads.bind (Reads.sint (k := 4) (v := b.key.keyLen + b.entries.flatten.length) (by decide)
    (inI4_of (by omega) (by omega))) ?_
  have hbuf : ∀ key : Key, Reads (do
      let sz ← if b.vers ≤ 1 then Rd.i32 else pure (b.key.keyLen + b.entries.flatten.length)
      if sz < 0 then Rd.panic
      else
        let buf ← Rd.take sz.toNat
        pure { key with buffer := buf }) (b.front ++ b.entries.flatten) { key with buffer := b.front ++ b.entries.flatten } := by
    intro key
    rw [if_neg (by have := h.vers.2.1; omega)]
    show Reads (if _ then _ else _) _ _
    rw [if_neg (by omega)]
    have e : (b.key.keyLen + b.entries.flatten.length).toNat = (b.front ++ b.entries.flatten).length := by
      rw [List.length_append]; omega
    rw [e]
    refine (Reads.bind (b2 := []) (Reads.take _) ?_).congr (List.append_nil _)
    exact Reads.pure _
  cases ht : b.table with
  | false =>
    refine Reads.bind (a := 12) (Reads.uint (k := 1) (v := 12) (by decide)) ?_
    simp only [Bool.false_eq_true, false_and, if_false, List.nil_append]
    refine (Reads.bind (b1 := []) (a := ([] : List Int)) ?_ ?_).congr (List.nil_append _)
    · exact Reads.pure _
    refine (Reads.bind (b2 := []) (hbuf _) ?_).congr (List.append_nil _)
    have : b.afterRead.offsets = [] := by unfold KeptBasket.afterRead; dsimp only; rw [ht]; rfl
    have e : b.afterRead = { b.afterRead with offsets := [] } := by rw [← this]
    rw [e]
    exact Reads.pure _
  | true =>
    refine Reads.bind (a := 11) (Reads.uint (k := 1) (v := 11) (by decide)) ?_
    simp only [true_and]
    refine Reads.bind (a := b.afterRead.offsets) ?_ ?_
    · have ho : b.afterRead.offsets = if b.entries ≠ [] then
          (starts 0 b.entries).map (fun (s : Nat) => (s : Int) + b.key.keyLen) else [] := by
        unfold KeptBasket.afterRead
        dsimp only
        simp only [ht, true_and]
      by_cases hne : b.entries = []
      · rw [if_neg (by simp [hne])] at ho
        rw [ho, if_neg (by rw [hne]; decide)]
        refine (Reads.bind (b2 := []) (Reads.pure _) ?_).congr (by simp [hne])
        exact Reads.pure _
      · have : 0 < b.entries.length := List.length_pos_iff.2 hne
        rw [ho, if_pos (by omega), if_pos hne, if_pos hne]
        refine (Reads.bind (b2 := []) (a := (starts 0 b.entries).map (fun (s : Nat) => (s : Int) + b.key.keyLen)) ?_ ?_).congr
          (List.append_nil _)
        rotate_left
        · exact Reads.pure _
        refine Reads.bind (Reads.sint (k := 4) (v := (b.entries.length : Int)) (by decide) (inI4_of (by omega) (by omega))) ?_
        rw [if_neg (by omega)]
        refine (Reads.bind (b2 := []) (a := (starts 0 b.entries).map (fun (s : Nat) => (s : Int) + b.key.keyLen)) ?_ ?_).congr
          (List.append_nil _)
        rotate_left
        · exact Reads.pure _
        have hl : (b.entries.length : Int).toNat = ((starts 0 b.entries).map (fun (s : Nat) => (s : Int) + b.key.keyLen)).length := by
          rw [List.length_map, starts_length]; omega
        rw [hl]
        refine Reads.times fun x hx => ?_
        obtain ⟨s, hs, rfl⟩ := List.mem_map.1 hx
        have := starts_le s hs
        exact Reads.sint (by decide) (inI4_of (by omega) (by omega))
    · refine (Reads.bind (b2 := []) (hbuf _) ?_).congr (List.append_nil _)
      exact Reads.pure _

theorem KeptBasket.base {b : KeptBasket} (h : b.Ok) :
    embeddedBase [b.afterRead] = .ok [.ok (.regular b.entries.length 1 b.entries.flatten)] := by
  have e : b.key.keyLen.toNat = b.front.length := by have := h.front; omega
  unfold embeddedBase
  dsimp only [KeptBasket.afterRead, Key.afterRead]
  rw [if_neg (by have := h.front; omega), e, List.drop_left]

theorem KeptBasket.element {b : KeptBasket} (h : b.Ok) (ht : b.table = true) (hdr : Int) :
    embeddedElement (.ok hdr) [b.afterRead] = .ok [.ok (.irregular 0 b.entries hdr)] := by
  have hfits := h.fits
  have hlen : asI 4 ((b.front ++ b.entries.flatten).length : Int) = ((b.front.length + b.entries.flatten.length : Nat) : Int) := by
    rw [List.length_append]
    exact asI_of (by decide) (inI4_of (by omega) (by omega))
  have hs := slices_starts b.entries b.front []
  rw [List.append_nil] at hs
  have ho : b.afterRead.offsets = (starts b.front.length b.entries).map (fun (s : Nat) => (s : Int)) := by
    unfold KeptBasket.afterRead
    dsimp only
    simp only [ht, true_and]
    have : ∀ n (es : List (List Byte)), starts (b.front.length + n) es = (starts n es).map (b.front.length + ·) := by
      intro n es
      induction es generalizing n with
      | nil => rfl
      | cons e es ih => simp only [starts, List.map_cons, Nat.add_assoc, ih]
    have := this 0 b.entries
    rw [Nat.add_zero] at this
    rw [this, List.map_map]
    by_cases hne : b.entries = []
    · rw [if_neg (by simp [hne]), hne]; rfl
    · rw [if_pos hne]
      refine List.map_congr_left fun s _ => ?_
      have := h.front
      simp only [Function.comp_apply]
      omega
  unfold embeddedElement
  simp only [bind, Except.bind]
  rw [ho]
  have hb : b.afterRead.key.buffer = b.front ++ b.entries.flatten := rfl
  rw [hb, hlen, hs]
  rfl

end Verif
