import Verif.Lemmas.BasketRead
import Verif.Lemmas.SkipHeader
import Verif.Lemmas.Opened
import Verif.Model.BranchRead
/-
Iterating over a branch that has been written.
-/
namespace Verif

/-! ### The record of a basket -/

/-- The basket a reader makes of a record. -/
def Basket.afterRead (b : Basket) : Basket :=
  { key := b.key.afterRead packedNow, nevBuf := b.nevBuf, last := b.last, nevSize := b.nevSize
    bufSize := if b.bufSize < b.last then b.last else b.bufSize }

theorem Basket.reads {b : Basket} (hk : b.key.InRange) (hv : b.rvers = rversBasket) (h1 : InI 4 b.bufSize)
    (h2 : InI 4 b.nevSize) (h0 : 0 ≤ b.nevSize) (h3 : InI 4 b.nevBuf) (h4 : InI 4 b.last) :
    Reads Basket.unmarshal (b.key.enc packedNow ++ b.tail) b.afterRead := by
  unfold Basket.unmarshal Basket.tail
  refine Reads.bind (Key.reads hk packedNow_lt) ?_
  refine Reads.bind (a := b.rvers) (Reads.sint (by decide) (by rw [hv]; decide)) ?_
  refine Reads.bind (b1 := []) (a := ()) ?_ ?_
  · rw [hv]; exact Reads.pure ()
  refine Reads.bind (Reads.sint (by decide) h1) ?_
  refine Reads.bind (Reads.sint (by decide) h2) ?_
  dsimp only
  rw [if_neg (by omega)]
  refine Reads.bind (Reads.sint (by decide) h3) ?_
  refine Reads.bind (Reads.sint (by decide) h4) ?_
  refine (Reads.bind (b2 := []) (a := 0) (Reads.uint (k := 1) (v := 0) (by decide)) ?_).congr
    (List.append_nil _)
  exact Reads.pure _

/-! ### The data of a basket -/

theorem offsetWords_cons {k v : Int} (hv : InI 4 v) (hd : InI 4 (v - k)) (bs : List Byte) :
    offsetWords k (encI 4 v ++ bs) = (do let xs ← offsetWords k bs; pure ((v - k) :: xs)) := by
  have hl := encI_length 4 v
  have hb : toSigned 4 (beNat (encI 4 v)) = v := by
    unfold encI
    rw [beNat_beBytes_of_lt (wrapI_lt 4 v), toSigned_wrapI (by decide) hv]
  generalize encI 4 v = e at *
  match e, hl with
  | [a, b, c, d], _ =>
    show offsetWords k (a :: b :: c :: d :: bs) = _
    conv => lhs; unfold offsetWords
    rw [hb]
    unfold i32Sub
    rw [if_pos hd]
    rfl

theorem offsetWords_list {k : Int} (ss : List Nat) (hs : ∀ s ∈ ss, InI 4 ((s : Int) + k) ∧ InI 4 (s : Int))
    (h0 : InI 4 (-k)) :
    offsetWords k (ss.flatMap (fun (s : Nat) => encI 4 ((s : Int) + k)) ++ encI 4 0) =
      .ok (ss.map (fun (s : Nat) => (s : Int)) ++ [-k]) := by
  induction ss with
  | nil =>
    have := offsetWords_cons (k := k) (v := 0) (by decide) (by rw [Int.zero_sub]; exact h0) []
    rw [List.append_nil] at this
    simp only [List.flatMap_nil, List.nil_append, this]
    simp [offsetWords, bind, Except.bind, pure, Except.pure]
  | cons s ss ih =>
    have hs1 := hs s (List.mem_cons_self ..)
    rw [List.flatMap_cons, List.append_assoc, offsetWords_cons hs1.1 (by
      rw [Int.add_sub_cancel]; exact hs1.2), ih fun x hx => hs x (List.mem_cons_of_mem _ hx)]
    simp [bind, Except.bind, pure, Except.pure]

/-- What `raw_data` gives. -/
def basketData (tab : Bool) (es : List (List Byte)) : BasketData :=
  if tab then .unTrust es.length es.flatten
    ((starts 0 es).map (fun (s : Nat) => (s : Int)) ++ [(es.flatten.length : Int)])
  else .trust es.length es.flatten

theorem basketPayload_length (tab : Bool) (k : Int) (es : List (List Byte)) :
    (basketPayload tab k es).length = es.flatten.length + if tab then 8 + 4 * es.length else 0 := by
  have : ∀ ss : List Nat, (ss.flatMap (fun (s : Nat) => encI 4 ((s : Int) + k))).length = 4 * ss.length := by
    intro ss
    induction ss with
    | nil => rfl
    | cons s ss ih => rw [List.flatMap_cons, List.length_append, ih, encI_length, List.length_cons]; omega
  unfold basketPayload
  cases tab
  · simp
  · simp only [if_true, List.length_append, encI_length, this, starts_length]
    omega

theorem inI4_of {n : Int} (h : -2147483648 ≤ n) (h' : n < 2147483648) : InI 4 n := by
  unfold InI
  rw [show ((256 ^ 4 : Nat) : Int) = 4294967296 from rfl]
  omega

/-- Reading a stored basket. -/
theorem BasketAt.read {path : Str} {f : FileW} {img : List Byte} (hl : Kept path f img)
    {name tn : Str} {tab : Bool} {cycle : Int} {d : Done}
    (h : BasketAt path f.trace name tn tab cycle d)
    (hname : utf8 name = true) (htn : utf8 tn = true) (hk : bkl name tn ≤ 32767) (hc : InI 2 cycle)
    {r : Reader} (hr : r.img = img) (size : Int) (leaf : Leaf) :
    ∃ b, Slot.read r ⟨d.seek, d.bytes, size, leaf⟩ = .ok (b, basketData tab d.es) := by
  obtain ⟨bk, e1, e2, e3, e4, ⟨e5, -⟩, e6, e7, hlen, hst⟩ := h.onDisk_of hl
  have hlo := h.lo
  have hhi := h.hi
  have hbytes := h.bytes
  have hd := dirPos_ge path
  have hpl := basketPayload_length tab (bkl name tn) d.es
  have hfl := length_le_flatten h.full
  have h26 : 26 ≤ bkl name tn := (keyLenFor_ge name tn (b! "TBasket") false false).1
  have hk0 : kStartBigFile = 2000000000 := rfl
  have hname2 : name.length + tn.length < 40000 := by
    have hb : bkl name tn = 22 + 0 + 4 + tstringSizeof (b! "TBasket") + tstringSizeof name +
      tstringSizeof tn + 19 := rfl
    have : tstringSizeof (b! "TBasket") = 8 := by decide
    have h1 : (name.length : Int) ≤ tstringSizeof name := by unfold tstringSizeof; split <;> omega
    have h2 : (tn.length : Int) ≤ tstringSizeof tn := by unfold tstringSizeof; split <;> omega
    omega
  generalize hpay : basketPayload tab (bkl name tn) d.es = pay at *
  have hrange : bk.key.InRange := by
    rw [e1]
    unfold Key.InRange Key.at
    dsimp only
    have hr4 : rversKey = 4 := rfl
    refine ⟨by omega, inI4_of (by omega) (by omega), by decide, by intro hx; omega,
      inI4_of (by omega) (by omega), ?_, hc, ?_, (by decide : InI 4 100), by decide, ⟨by omega, hname⟩, ⟨by omega, htn⟩⟩
    · unfold InI
      rw [show ((256 ^ 2 : Nat) : Int) = 65536 from rfl]
      omega
    · exact (inI4_of (by omega) (by omega) : InI 4 d.seek)
  have hreads := Basket.reads hrange e7 (by rw [e6]; decide) e5 e4
    (by rw [e2]; exact inI4_of (by omega) (by omega)) (by rw [e3]; exact inI4_of (by omega) (by omega))
  have hread : readAt r.img d.seek d.bytes = .ok ((bk.key.enc packedNow ++ bk.tail) ++ pay) := by
    rw [hr]
    refine readAt_stored (by omega) ?_ hst
    rw [List.length_append, Int.natCast_add, hlen, hbytes]
  refine ⟨bk.afterRead, ?_⟩
  unfold Slot.read
  simp only [hread, Res.unwrap, bind, Except.bind, readWith_reads hreads rfl]
  have hload : bk.afterRead.key.load r.dec r.img = .ok pay := by
    have : bk.afterRead.key = { bk.key with datetime := packedNow, left := 0, buffer := [] } := rfl
    rw [this, e1]
    rw [Key.load_sane ⟨by show 0 ≤ d.seek; omega, by show d.seek < 2 ^ 63; omega, by show 0 ≤ bkl name tn; omega,
      by show bkl name tn ≤ bkl name tn + pay.length; omega, by show bkl name tn + pay.length < 2 ^ 31; omega⟩]
    unfold Key.isCompressed Key.at
    dsimp only
    rw [if_neg (by simp only [decide_eq_true_eq, ne_eq, Classical.not_not]; omega), hr]
    have h2 := (Stored.append.1 hst).2
    have e : d.seek.toNat + (bk.key.enc packedNow ++ bk.tail).length = (d.seek + bkl name tn).toNat := by
      omega
    rw [e] at h2
    exact readAt_stored (by omega) rfl h2
  have hraw : bk.afterRead.rawData r.dec r.img = .ok (basketData tab d.es) := by
    unfold Basket.rawData
    simp only [hload, Res.unwrap, bind, Except.bind]
    have hkl : bk.afterRead.key.keyLen = bkl name tn := by show bk.key.keyLen = _; rw [e1]; rfl
    have hol : bk.afterRead.key.objLen = pay.length := by show bk.key.objLen = _; rw [e1]; rfl
    have hla : bk.afterRead.last = bkl name tn + d.es.flatten.length := e3
    have hnb : bk.afterRead.nevBuf = d.es.length := e2
    have hb : i32Sub (bkl name tn + d.es.flatten.length) (bkl name tn) = .ok (d.es.flatten.length : Int) := by
      unfold i32Sub
      rw [if_pos (by rw [Int.add_comm, Int.add_sub_cancel]; exact inI4_of (by omega) (by omega))]
      rw [Int.add_comm, Int.add_sub_cancel]
    simp only [hkl, hol, hla, hnb, hb]
    cases tab with
    | false =>
      simp only [if_neg (Bool.false_ne_true), Nat.add_zero] at hpl
      rw [if_neg (by simp only [ne_eq, Classical.not_not]; omega)]
      subst hpay
      unfold basketData basketPayload
      simp
    | true =>
      simp only [if_true] at hpl
      rw [if_pos (by omega), if_neg (by omega)]
      subst hpay
      have hp1 : (basketPayload true (bkl name tn) d.es).take (d.es.flatten.length : Int).toNat = d.es.flatten := by
        unfold basketPayload
        rw [Int.toNat_natCast, List.take_left]
      have hp2 : (basketPayload true (bkl name tn) d.es).drop (d.es.flatten.length : Int).toNat =
          encI 4 (d.es.length + 1) ++
          ((starts 0 d.es).flatMap (fun (s : Nat) => encI 4 ((s : Int) + bkl name tn)) ++ encI 4 0) := by
        unfold basketPayload
        rw [Int.toNat_natCast, List.drop_left, if_pos rfl]
      rw [hp1, hp2, offsetWords_cons (inI4_of (by omega) (by omega)) (inI4_of (by omega) (by omega)),
        offsetWords_list _ (fun s hs => by
          have := starts_le s hs
          exact ⟨inI4_of (by omega) (by omega), inI4_of (by omega) (by omega)⟩)
        (inI4_of (by omega) (by omega))]
      simp [bind, Except.bind, pure, Except.pure, basketData]
  rw [hraw]
  rfl

/-! ### The entries of a basket -/

theorem slices_starts (es : List (List Byte)) (pre post : List Byte) :
    slices (pre ++ es.flatten ++ post) ((starts pre.length es).map (fun (s : Nat) => (s : Int)) ++
      [((pre.length + es.flatten.length : Nat) : Int)]) = .ok es := by
  induction es generalizing pre with
  | nil => simp [starts, slices]
  | cons e es ih =>
    have ih := ih (pre ++ e)
    have hrest : ∃ x xs, (starts (pre ++ e).length es).map (fun (s : Nat) => (s : Int)) ++
        [(((pre ++ e).length + es.flatten.length : Nat) : Int)] = x :: xs ∧ x = ((pre.length + e.length : Nat) : Int) := by
      cases es with
      | nil => exact ⟨_, _, rfl, by simp⟩
      | cons a as => exact ⟨_, _, rfl, by simp⟩
    obtain ⟨x, xs, hx, rfl⟩ := hrest
    have e1 : pre ++ (e :: es).flatten ++ post = pre ++ e ++ es.flatten ++ post := by simp
    have e2 : pre.length + (e :: es).flatten.length = (pre ++ e).length + es.flatten.length := by
      simp [Nat.add_assoc]
    have e3 : starts pre.length (e :: es) = pre.length :: starts (pre ++ e).length es := by
      simp [starts]
    rw [e1, e2, e3, List.map_cons, List.cons_append, hx]
    rw [hx] at ih
    unfold slices
    rw [ih]
    have hs : slice (pre ++ e ++ es.flatten ++ post) (pre.length : Int) ((pre.length + e.length : Nat) : Int) = .ok e := by
      unfold slice
      rw [if_pos (by simp; omega)]
      have h1 : ((pre.length + e.length : Nat) - (pre.length : Int)).toNat = e.length := by omega
      rw [h1, Int.toNat_natCast]
      simp
    rw [hs]
    rfl

theorem slices_basket (es : List (List Byte)) :
    slices es.flatten ((starts 0 es).map (fun (s : Nat) => (s : Int)) ++ [(es.flatten.length : Int)]) = .ok es := by
  have := slices_starts es [] []
  simpa using this

theorem collect_map {α β} {g : α → Res β} {v : α → β} {l : List α} (h : ∀ a ∈ l, g a = .ok (v a)) :
    collect (l.map g) = .ok (l.map v) := by
  induction l with
  | nil => rfl
  | cons a l ih =>
    simp only [List.map_cons, collect, h a (List.mem_cons_self ..),
      ih fun x hx => h x (List.mem_cons_of_mem _ hx)]
    rfl

theorem entryBytes_plain {t : Ty} {v : t.Val} (h : t.Ok v) (hv : ∀ e, t ≠ .vec e) : entryBytes t v = t.enc v := by
  rw [← marshalled_eq h]
  cases t <;> first | rfl | exact absurd rfl (hv _)

theorem entryBytes_vec {t : Ty} {v : (Ty.vec t).Val} (h : (Ty.vec t).Ok v) :
    entryBytes (.vec t) v = hdrBytes ((Ty.vec t).enc v).length 9 ++ (Ty.vec t).enc v := by
  rw [← marshalled_eq h]
  rfl

theorem hdr_head {n : Nat} (h : n + 2 < 2 ^ 24) (vers : Int) : (hdrBytes n vers).head? = some 64 := by
  unfold hdrBytes kByteCountMask
  have e : (n + 2) ||| 0x40000000 = 2 ^ 30 * 1 + (n + 2) := by
    rw [Nat.or_comm]
    exact (Nat.two_pow_add_eq_or_of_lt (i := 30) (by omega) 1).symm
  rw [e]
  have : (2 ^ 30 * 1 + (n + 2)) / 256 ^ 3 = 64 := by omega
  simp only [beBytes, List.cons_append, List.head?_cons, this]
  rfl

/-- An entry of a branch of vectors. -/
theorem read_vecEntry {t : Ty} {v : (Ty.vec t).Val} (h : (Ty.vec t).Ok v)
    (hs : ((Ty.vec t).enc v).length + 2 < 2 ^ 24) :
    readWith (do Rd.setSkip (some 6); (Ty.vec t).unmarshal) (entryBytes (.vec t) v) = .ok v := by
  rw [entryBytes_vec h]
  generalize hb : hdrBytes ((Ty.vec t).enc v).length 9 = hdr
  have hlen : hdr.length = 6 := by rw [← hb]; exact hdrBytes_length _ _
  have hhead : hdr.head? = some 64 := by rw [← hb]; exact hdr_head hs 9
  unfold readWith
  rw [Rd.bind_ok (a := ()) (r' := RBuffer.mk (hdr ++ (Ty.vec t).enc v) 0 0 [] (some 6)) rfl]
  have h1 := Rd.doSkipHeader_present (r := RBuffer.mk (hdr ++ (Ty.vec t).enc v) 0 0 [] (some 6)) (s := 6)
    (hdr := hdr) (bs := (Ty.vec t).enc v) rfl hlen (by decide) hhead (Nat.zero_le _)
    (by simp only [RBuffer.rest, List.drop_zero]; exact List.prefix_rfl)
  have h2 := Reads.vecBody (m := t.unmarshal) (enc := t.enc) (l := v) h.1
    (fun a ha => t.reads_unmarshal a (h.2 a ha))
    (r := (RBuffer.mk (hdr ++ (Ty.vec t).enc v) 0 0 [] (some 6)).adv 6)
    (by simp [RBuffer.adv, hlen])
    (by
      simp only [RBuffer.rest, RBuffer.adv]
      rw [Nat.zero_add, ← hlen, List.drop_left]
      exact List.prefix_rfl)
  have : ∃ r', (Ty.vec t).unmarshal (RBuffer.mk (hdr ++ (Ty.vec t).enc v) 0 0 [] (some 6)) = .ok (v, r') := by
    have he : Rd.vec t.unmarshal (RBuffer.mk (hdr ++ (Ty.vec t).enc v) 0 0 [] (some 6)) =
        (do
          let size ← Rd.i32
          if size < 0 then Rd.panic
          else
            Rd.setSkip none
            Rd.times size.toNat t.unmarshal : Rd (List t.Val))
          ((RBuffer.mk (hdr ++ (Ty.vec t).enc v) 0 0 [] (some 6)).adv 6) := Rd.bind_ok h1
    exact ⟨_, he.trans h2⟩
  obtain ⟨r', hr⟩ := this
  rw [hr]

/-! ### A written branch -/

/-- What a branch of vectors adds. -/
def Ty.elemOf : Ty → Option BranchElem
  | .vec e =>
    match (Ty.vec e).wrClassName with
    | .ok c => some { className := c, stype := -1, id := -1 }
    | .error _ => none
  | _ => none

/-- The branch made for a column. -/
def madeBranch (t : Ty) (name : Str) (io : Nat) (leaf : Leaf) : Branch :=
  .mk { named := { name := name, title := name ++ b! "/" ++ t.rootCode }
        iobits := io, basketSize := defaultBasketSize, maxBaskets := defaultMaxBaskets
        basketEntry := [0], leaves := [leaf], entryOffsetLen := if t.varies then 1000 else 0 } t.elemOf []

theorem WBranch.new_made {t : Ty} {name : Str} {items : List (Option (Wr Nat))} {io : Nat} {b : WBranch}
    {sis : List StreamerInfo} (h : WBranch.new t name items io = .ok (b, sis)) :
    ∃ leaf, Leaf.new t name = .ok leaf ∧ b.branch = madeBranch t name io leaf ∧
      (∀ e, t = .vec e → e.stlContent ≠ none ∧ ∃ si, makeVectorStreamer e = .ok si ∧ sis = [si]) ∧
      ((∀ e, t ≠ .vec e) → sis = []) := by
  unfold WBranch.new at h
  obtain ⟨leaf, hl, h⟩ := Res.ok_bind.1 h
  refine ⟨leaf, hl, ?_⟩
  dsimp only at h
  cases t with
  | vec e =>
    dsimp only at h
    obtain ⟨c, hc, h⟩ := Res.ok_bind.1 h
    obtain ⟨si, hsi, h⟩ := Res.ok_bind.1 h
    cases h
    refine ⟨?_, ?_, fun h => absurd rfl (h e)⟩
    · simp only [madeBranch, Ty.elemOf, hc]
      rfl
    · intro e' he
      cases he
      refine ⟨?_, si, hsi, rfl⟩
      intro hn
      unfold makeVectorStreamer at hsi
      rw [hc, hn] at hsi
      cases hsi
  | _ =>
    dsimp only at h
    cases h
    exact ⟨rfl, (fun e he => by cases he), fun _ => rfl⟩

/-- How the entries of a column are read from the data of a basket. -/
theorem chunk_items {t : Ty} {name : Str} {l0 l : Leaf} (hl0 : Leaf.new t name = .ok l0) (hlike : LeafLike l0 l)
    {vs : List t.Val} (hok : ∀ v ∈ vs, t.Ok v)
    (hsmall : ∀ e, t = .vec e → ∀ v ∈ vs, (marshalled t v).length + 2 < 2 ^ 24) (entries size : Int) :
    ((∀ e, t ≠ .vec e) → ∃ c, (basketData t.varies (vs.map (entryBytes t))).chunk entries l size = .ok c ∧
      c.items t.unmarshal = .ok vs) ∧
    ((∃ e, t = .vec e) → ∃ c, (basketData t.varies (vs.map (entryBytes t))).chunkElement (.ok 6) l size = .ok c ∧
      c.items t.unmarshal = .ok vs) := by
  constructor
  · intro hne
    have hc : (basketData t.varies (vs.map (entryBytes t))).chunk entries l size =
        .ok (.regular (vs.map (entryBytes t)).length size (vs.map (entryBytes t)).flatten) := by
      unfold basketData
      cases hv : t.varies with
      | false => rfl
      | true =>
        have ht : t = .string := by
          cases t <;> first | rfl | exact absurd rfl (hne _) | cases hv
        subst ht
        cases hl0
        cases hlike <;> rfl
    refine ⟨_, hc, ?_⟩
    have he : (vs.map (entryBytes t)).flatten = vs.flatMap t.enc := by
      rw [List.flatMap_def]
      congr 1
      exact List.map_congr_left fun v hv => entryBytes_plain (hok v hv) hne
    unfold Chunk.items
    dsimp only
    rw [if_neg (by omega), he, List.length_map, Int.toNat_natCast,
      readWith_reads (Reads.times fun v hv => t.reads_unmarshal v (hok v hv)) (List.append_nil _).symm]
    rfl
  · rintro ⟨e, rfl⟩
    have hl : ∃ a b c d, l = .element a b c d := by
      unfold Leaf.new at hl0
      obtain ⟨_, -, hl0⟩ := Res.ok_bind.1 hl0
      cases hl0
      cases hlike
      exact ⟨_, _, _, _, rfl⟩
    obtain ⟨a, b, c, d, rfl⟩ := hl
    refine ⟨.irregular (vs.map (entryBytes (.vec e))).length (vs.map (entryBytes (.vec e))) 6, ?_, ?_⟩
    · unfold basketData BasketData.chunkElement
      rw [if_pos (show (Ty.vec e).varies = true from rfl)]
      dsimp only
      simp only [bind, Except.bind, slices_basket]
      rfl
    · unfold Chunk.items
      dsimp only
      rw [List.map_map, collect_map (v := fun v => v) (fun v hv => ?_)]
      · rw [List.map_id']
      · have := hsmall e rfl v hv
        rw [marshalled_eq (hok v hv)] at this
        simp only [Function.comp_apply]
        rw [read_vecEntry (hok v hv) this]
        rfl

theorem slots_done {d : BranchData} {done : List Done} {l : Leaf} (hl : d.leaves = [l])
    (hs : d.basketSeek = done.map Done.seek) (hb : d.basketBytes = done.map Done.bytes)
    (hpos : ∀ x ∈ done, 0 < x.bytes) :
    d.slots = .ok (done.map fun x => ⟨x.seek, x.bytes, l.tleaf.etype, l⟩) := by
  unfold BranchData.slots
  rw [hl, hs, hb]
  simp only [List.length_map, List.map_cons, List.map_nil, List.length_cons, List.length_nil, Nat.zero_add]
  have key : ∀ sizes : List Int, sizes = l.tleaf.etype :: List.replicate (done.length - 1) l.tleaf.etype →
      (List.zipWith (fun (p : Int × Int) (q : Int × Leaf) => Slot.mk p.1 p.2 q.1 q.2)
        (List.zip (done.map Done.seek) (done.map Done.bytes))
        (List.zip sizes (List.replicate done.length l))).filter (fun s => 0 < s.bytes) =
      done.map fun x => ⟨x.seek, x.bytes, l.tleaf.etype, l⟩ := by
    rintro sizes rfl
    rw [List.filter_eq_self.2]
    · cases done with
      | nil => rfl
      | cons x xs =>
        clear hl hs hb hpos
        have : (l.tleaf.etype :: List.replicate ((x :: xs).length - 1) l.tleaf.etype) =
            List.replicate (x :: xs).length l.tleaf.etype := by
          simp [List.replicate_succ]
        rw [this]
        generalize x :: xs = ys
        induction ys with
        | nil => rfl
        | cons y ys ih =>
          simp only [List.map_cons, List.length_cons, List.replicate_succ, List.zip_cons_cons,
            List.zipWith_cons_cons, ih]
    · intro s hs
      obtain ⟨⟨p, q⟩, h, rfl⟩ : ∃ pq : (Int × Int) × (Int × Leaf),
          pq.1 ∈ List.zip (done.map Done.seek) (done.map Done.bytes) ∧
          s = ⟨pq.1.1, pq.1.2, pq.2.1, pq.2.2⟩ := by
        rw [← List.map_uncurry_zip_eq_zipWith] at hs
        obtain ⟨pq, h1, rfl⟩ := List.mem_map.1 hs
        exact ⟨pq, (List.of_mem_zip h1).1, rfl⟩
      have := (List.of_mem_zip (a := p.1) (b := p.2) h).2
      obtain ⟨x, hx, e⟩ := List.mem_map.1 this
      simp only [decide_eq_true_eq]
      rw [← e]
      exact hpos x hx
  split
  · next h => exact congrArg Except.ok (key [_] (by rw [← h]; rfl))
  · exact congrArg Except.ok (key _ rfl)

theorem split_taken {α β} {g : α → β} {xss : List (List β)} {vals : List α} (h : xss.flatten = vals.map g) :
    ∃ vss : List (List α), vss.flatten = vals ∧ xss = vss.map fun vs => vs.map g := by
  induction xss generalizing vals with
  | nil =>
    cases vals with
    | nil => exact ⟨[], rfl, rfl⟩
    | cons => simp at h
  | cons xs xss ih =>
    rw [List.flatten_cons] at h
    obtain ⟨a, b, rfl, h1, h2⟩ := List.map_eq_append_iff.1 h.symm
    obtain ⟨vss, h3, h4⟩ := ih h2.symm
    exact ⟨a :: vss, by rw [List.flatten_cons, h3], by rw [List.map_cons, h1, ← h4]⟩

theorem collect_zip {α β γ} {g : α → Res γ} {e : β → γ} {xs : List α} {ys : List β} (hl : xs.length = ys.length)
    (h : ∀ (i : Nat) x y, xs[i]? = some x → ys[i]? = some y → g x = .ok (e y)) :
    collect (xs.map g) = .ok (ys.map e) := by
  induction xs generalizing ys with
  | nil =>
    cases ys with
    | nil => rfl
    | cons => simp at hl
  | cons x xs ih =>
    cases ys with
    | nil => simp at hl
    | cons y ys =>
      simp only [List.map_cons, collect, h 0 x y rfl rfl,
        ih (by simpa using hl) fun i a b ha hb => h (i + 1) a b ha hb]
      rfl

/-- Iterating over a branch whose baskets are on disk. -/
theorem getBasket_done {path tn : Str} {f : FileW} {img : List Byte} (hl : Kept path f img)
    {c : Column} {l0 l : Leaf} {b : Branch} {done : List Done}
    (hnew : Leaf.new c.ty c.name = .ok l0) (hlike : LeafLike l0 l) (hleaves : b.data.leaves = [l])
    (hs : b.data.basketSeek = done.map Done.seek) (hb : b.data.basketBytes = done.map Done.bytes)
    (hbk : b.data.baskets = []) (hsub : b.branches = [])
    (helem : b.elem = c.ty.elemOf)
    (hst : ∀ (i : Nat) d, done[i]? = some d → BasketAt path f.trace c.name tn c.ty.varies (i + 1) d)
    (hfew : done.length ≤ 32767) (htaken : (done.map Done.es).flatten = c.vals.map (entryBytes c.ty))
    (hok : ∀ v ∈ c.vals, c.ty.Ok v)
    (hsmall : ∀ e, c.ty = .vec e → ∀ v ∈ c.vals, (marshalled c.ty v).length + 2 < 2 ^ 24)
    (hname : utf8 c.name = true) (htn : utf8 tn = true) (hk : bkl c.name tn ≤ 32767)
    {r : Reader} (hr : r.img = img)
    (hhead : ∀ e, c.ty = .vec e → ∃ be, b.elem = some be ∧ be.header r b.data.named.name = .ok 6) :
    b.getBasket r c.ty.unmarshal = .ok c.vals := by
  obtain ⟨vss, hv, hes⟩ := split_taken htaken
  have hlen : done.length = vss.length := by
    have := congrArg List.length hes
    simpa using this
  have hpos : ∀ x ∈ done, 0 < x.bytes := by
    intro x hx
    obtain ⟨i, hi', rfl⟩ := List.getElem_of_mem hx
    have h := hst i _ (List.getElem?_eq_getElem hi')
    have h26 : 26 ≤ bkl c.name tn := (keyLenFor_ge c.name tn (b! "TBasket") false false).1
    rw [h.bytes]
    omega
  have hslots := slots_done hleaves hs hb hpos
  have hread : ∀ (i : Nat) d, done[i]? = some d → ∃ bk, Slot.read r ⟨d.seek, d.bytes, l.tleaf.etype, l⟩ =
      .ok (bk, basketData c.ty.varies d.es) := by
    intro i d hd
    have hlt : i < done.length := by
      rcases Nat.lt_or_ge i done.length with h | h
      · exact h
      · rw [List.getElem?_eq_none h] at hd; cases hd
    have hc : InI 2 ((i : Int) + 1) := by
      have := inI2_nat (n := i + 1) (by omega)
      simpa using this
    exact (hst i d hd).read hl hname htn hk hc hr _ _
  have hesi : ∀ (i : Nat) d vs, done[i]? = some d → vss[i]? = some vs → d.es = vs.map (entryBytes c.ty) := by
    intro i d vs hd hvs
    have h1 : (done.map Done.es)[i]? = some d.es := by rw [List.getElem?_map, hd]; rfl
    rw [hes, List.getElem?_map, hvs] at h1
    injection h1 with h1
    exact h1.symm
  have hmem : ∀ (i : Nat) vs, vss[i]? = some vs → ∀ v ∈ vs, v ∈ c.vals := by
    intro i vs hvs v hv'
    rw [← hv]
    exact List.mem_flatten.2 ⟨vs, List.mem_of_getElem? hvs, hv'⟩
  unfold Branch.getBasket
  rw [hsub]
  dsimp only
  by_cases hvec : ∃ e, c.ty = .vec e
  · obtain ⟨e, he⟩ := hvec
    obtain ⟨be, hbe, hh⟩ := hhead e he
    have hcs : b.chunks r = .ok (done.map fun x => do
        let (bk, bd) ← Slot.read r ⟨x.seek, x.bytes, l.tleaf.etype, l⟩
        bd.chunkElement (.ok 6) l (l.sized l.tleaf.etype bk.nevSize)) := by
      unfold Branch.chunks
      rw [hbe]
      dsimp only
      unfold BranchElem.chunks
      rw [hslots, hbk, hh]
      simp only [bind, Except.bind, pure, Except.pure, embeddedElement, List.nil_append, List.map_map]
      rfl
    rw [hcs]
    simp only [bind, Except.bind, List.map_map]
    rw [collect_zip (e := fun vs => vs) hlen]
    · simp only [List.map_id', pure, Except.pure]
      rw [hv]
    · intro i d vs hd hvs
      obtain ⟨bk, hbk'⟩ := hread i d hd
      simp only [Function.comp_apply, hbk', hesi i d vs hd hvs]
      obtain ⟨-, h2⟩ := chunk_items hnew hlike (vs := vs) (fun v hv' => hok v (hmem i vs hvs v hv'))
        (fun e he v hv' => hsmall e he v (hmem i vs hvs v hv')) 0 (l.sized l.tleaf.etype bk.nevSize)
      obtain ⟨ch, h3, h4⟩ := h2 ⟨e, he⟩
      rw [h3]
      exact h4
  · have hbe : b.elem = none := by
      rw [helem]
      cases ht : c.ty <;> first | rfl | exact absurd ⟨_, ht⟩ hvec
    have hcs : b.chunks r = .ok (done.map fun x => do
        let (bk, bd) ← Slot.read r ⟨x.seek, x.bytes, l.tleaf.etype, l⟩
        bd.chunk b.data.entries l (l.sized l.tleaf.etype bk.nevSize)) := by
      unfold Branch.chunks
      rw [hbe]
      dsimp only
      unfold BranchData.chunks
      rw [hslots, hbk]
      simp only [bind, Except.bind, pure, Except.pure, embeddedBase, List.nil_append, List.map_map]
      rfl
    rw [hcs]
    simp only [bind, Except.bind, List.map_map]
    rw [collect_zip (e := fun vs => vs) hlen]
    · simp only [List.map_id', pure, Except.pure]
      rw [hv]
    · intro i d vs hd hvs
      obtain ⟨bk, hbk'⟩ := hread i d hd
      simp only [Function.comp_apply, hbk', hesi i d vs hd hvs]
      obtain ⟨h2, -⟩ := chunk_items hnew hlike (vs := vs) (fun v hv' => hok v (hmem i vs hvs v hv'))
        (fun e he v hv' => hsmall e he v (hmem i vs hvs v hv')) b.data.entries (l.sized l.tleaf.etype bk.nevSize)
      obtain ⟨ch, h3, h4⟩ := h2 (fun e he => hvec ⟨e, he⟩)
      rw [h3]
      exact h4

end Verif
