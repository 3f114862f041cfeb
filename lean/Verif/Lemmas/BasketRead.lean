import Verif.Lemmas.Baskets
import Verif.Props.Layout
/-
Reading baskets back.
-/
namespace Verif

/-- What was written behind the record of the directory is still there. -/
def Kept (path : Str) (f : FileW) (img : List Byte) : Prop :=
  ∀ w ∈ f.trace, dirPos path + 60 ≤ w.pos → Stored img w.pos w.data

theorem Later.kept {env : Env} {path : Str} {f g : FileW} (hi : Inv path f) (hl : Later env f g) :
    Kept path f (image g.trace) := fun _ hw hp => hl.stored hi hw hp

/-- The record of a stored basket, wherever it was kept. -/
theorem BasketAt.onDisk_of {path : Str} {f : FileW} {img : List Byte} (hl : Kept path f img)
    {name tn : Str} {tab : Bool} {cycle : Int} {d : Done}
    (h : BasketAt path f.trace name tn tab cycle d) :
    ∃ bk : Basket, bk.key = Key.at name tn (b! "TBasket") cycle
        (basketPayload tab (bkl name tn) d.es).length (bkl name tn) d.seek 100 false
        (basketPayload tab (bkl name tn) d.es) ∧
      bk.nevBuf = d.es.length ∧ bk.last = bkl name tn + d.es.flatten.length ∧
      0 ≤ bk.nevSize ∧ (InI 4 bk.nevSize ∧ (tab = false → bk.nevSize = widest d.es)) ∧ bk.bufSize = defaultBasketSize ∧ bk.rvers = rversBasket ∧
      ((bk.key.enc packedNow ++ bk.tail).length : Int) = bkl name tn ∧
      Stored img d.seek.toNat ((bk.key.enc packedNow ++ bk.tail) ++
        basketPayload tab (bkl name tn) d.es) := by
  obtain ⟨bk, h1, h2, h3, h4, h5, h6, h7, h8⟩ := h.record
  have hd := dirPos_ge path
  have hlo := h.lo
  have h26 : 26 ≤ bkl name tn := (keyLenFor_ge name tn (b! "TBasket") false false).1
  have hlen : ((bk.key.enc packedNow ++ bk.tail).length : Int) = bkl name tn := by
    have hk := Key.at_enc_length name tn (b! "TBasket") cycle
      (basketPayload tab (bkl name tn) d.es).length d.seek 100 (basketPayload tab (bkl name tn) d.es)
    rw [List.length_append, h1, Basket.tail_length]
    have : extra (b! "TBasket") = 19 := by decide
    rw [this] at hk
    rw [Int.natCast_add, hk]
    exact Int.sub_add_cancel _ _
  refine ⟨bk, h1, h2, h3, h4, h5, h6, h7, hlen, ?_⟩
  rw [Stored.append]
  have e1 : bk.key.seekKey = d.seek := by rw [h1]; rfl
  have e2 : bk.key.keyLen = bkl name tn := by rw [h1]; rfl
  have e3 : bk.key.buffer = basketPayload tab (bkl name tn) d.es := by rw [h1]; rfl
  unfold Key.twoWrites at h8
  rw [e1, e2, e3] at h8
  constructor
  · exact hl _ (h8 _ (List.mem_cons_self ..)) (by simp only; omega)
  · have := hl _ (h8 _ (List.mem_cons_of_mem _ (List.mem_singleton.2 rfl))) (by simp only; omega)
    have e : d.seek.toNat + (bk.key.enc packedNow ++ bk.tail).length = (d.seek + bkl name tn).toNat := by
      omega
    rw [e]
    exact this

/-- The record of a stored basket, at any later time. -/
theorem BasketAt.onDisk {env : Env} {path : Str} {f g : FileW} (hi : Inv path f) (hl : Later env f g)
    {name tn : Str} {tab : Bool} {cycle : Int} {d : Done}
    (h : BasketAt path f.trace name tn tab cycle d) :
    ∃ bk : Basket, bk.key = Key.at name tn (b! "TBasket") cycle
        (basketPayload tab (bkl name tn) d.es).length (bkl name tn) d.seek 100 false
        (basketPayload tab (bkl name tn) d.es) ∧
      bk.nevBuf = d.es.length ∧ bk.last = bkl name tn + d.es.flatten.length ∧
      0 ≤ bk.nevSize ∧ (InI 4 bk.nevSize ∧ (tab = false → bk.nevSize = widest d.es)) ∧ bk.bufSize = defaultBasketSize ∧ bk.rvers = rversBasket ∧
      ((bk.key.enc packedNow ++ bk.tail).length : Int) = bkl name tn ∧
      Stored (image g.trace) d.seek.toNat ((bk.key.enc packedNow ++ bk.tail) ++
        basketPayload tab (bkl name tn) d.es) :=
  h.onDisk_of (hl.kept hi)

theorem starts_get {α} (xs : List (List α)) : ∀ (n i : Nat), i ≤ xs.length →
    (starts n xs ++ [n + xs.flatten.length])[i]? = some (n + (xs.take i).flatten.length) := by
  induction xs with
  | nil =>
    intro n i hi
    have : i = 0 := by simpa using hi
    subst this
    rfl
  | cons x xs ih =>
    intro n i hi
    cases i with
    | zero => rfl
    | succ i =>
      simp only [starts, List.cons_append, List.getElem?_cons_succ, List.flatten_cons, List.length_append,
        List.take_succ_cons]
      rw [← Nat.add_assoc, ih (n + x.length) i (by simpa using hi)]
      simp [Nat.add_assoc]

/-- The first-entry table. -/
theorem Tables.entry_get {path tn : Str} {tab : Bool} {T : List DiskWrite} {b0 : Branch} {l0 : Leaf}
    {done : List Done} {n : Nat} {b : Branch} (h : Tables path tn tab T b0 l0 done n b) {i : Nat} {a : Int}
    (ha : b.data.basketEntry[i]? = some a) :
    i ≤ done.length ∧ a = (((done.map Done.es).take i).flatten.length : Int) := by
  have he : b.data.basketEntry = (starts 0 (done.map Done.es) ++ [0 + (done.map Done.es).flatten.length]).map
      fun (s : Nat) => (s : Int) := by
    rw [h.data]
    simp
  rw [he, List.getElem?_map] at ha
  have hi : i ≤ done.length := by
    rcases Nat.lt_or_ge done.length i with hc | hc
    · rw [List.getElem?_eq_none (by simp; omega)] at ha
      cases ha
    · exact hc
  rw [starts_get _ 0 i (by simpa using hi)] at ha
  injection ha with ha
  exact ⟨hi, by rw [← ha, Nat.zero_add]⟩

theorem flatten_take_succ {α} {xs : List (List α)} {i : Nat} {x : List α} (h : xs[i]? = some x) :
    (xs.take (i + 1)).flatten = (xs.take i).flatten ++ x := by
  rw [List.take_add_one, h]
  simp

theorem between_map {α β} (l : List α) (g : α → List β) (i k : Nat) :
    (between l i ((i + k : Nat) - (i : Int))).flatMap g = (((l.map g).drop i).take k).flatten := by
  have : ((i + k : Nat) - (i : Int)).toNat = k := by omega
  unfold between
  rw [this, Int.toNat_natCast, List.flatMap_def, ← List.map_drop, ← List.map_take]

/-- The entries of one basket among all. -/
theorem block_of {α} {xs : List (List α)} {cur : List α} {i : Nat} {x : List α} (h : xs[i]? = some x) :
    ((xs.flatten ++ cur).drop (xs.take i).flatten.length).take x.length = x := by
  have hsplit : xs = xs.take i ++ x :: xs.drop (i + 1) := by
    have hlt : i < xs.length := by
      rcases Nat.lt_or_ge i xs.length with hc | hc
      · exact hc
      · rw [List.getElem?_eq_none hc] at h; cases h
    rw [List.getElem?_eq_getElem hlt] at h
    injection h with h
    rw [← h, ← List.drop_eq_getElem_cons hlt, List.take_append_drop]
  have : xs.flatten ++ cur = (xs.take i).flatten ++ (x ++ ((xs.drop (i + 1)).flatten ++ cur)) := by
    conv => lhs; rw [hsplit]
    simp
  rw [this, List.drop_left, List.take_left]

/-- The tables are right. -/
theorem Tables.right {env : Env} {path tn : Str} {tab : Bool} {f g : FileW} {b0 : Branch} {l0 : Leaf}
    {done : List Done} {n : Nat} {b : Branch} {t : Ty} {vals : List t.Val} {cur : List (List Byte)}
    (hi : Inv path f) (hl : Later env f g)
    (h : Tables path tn tab f.trace b0 l0 done n b)
    (hv : (done.map Done.es).flatten ++ cur = vals.map (entryBytes t)) :
    BasketTables tn vals b.data (image g.trace) := by
  have hbb : b.data.basketBytes = done.map Done.bytes := by rw [h.data]
  have hbs : b.data.basketSeek = done.map Done.seek := by rw [h.data]
  have hname : b.data.named.name = b0.name := h.name
  have hlen : b.data.basketEntry.length = done.length + 1 := by rw [h.data]; simp
  refine ⟨⟨by rw [hlen, hbb, List.length_map], by rw [hbb, hbs]; simp⟩, by rw [hbb, h.data]; simp, ?_, ?_, ?_, ?_⟩
  · rcases he : b.data.basketEntry[0]? with _ | a
    · rw [List.getElem?_eq_none_iff] at he; omega
    · rw [(h.entry_get he).2]; rfl
  · intro i a b ha hb
    obtain ⟨-, rfl⟩ := h.entry_get ha
    obtain ⟨h2, rfl⟩ := h.entry_get hb
    have hlt : i < (done.map Done.es).length := by rw [List.length_map]; omega
    rw [flatten_take_succ (List.getElem?_eq_getElem hlt), List.length_append]
    omega
  · intro a ha
    rw [List.getLast?_eq_getElem?, hlen] at ha
    obtain ⟨-, rfl⟩ := h.entry_get ha
    have := congrArg List.length hv
    rw [Nat.add_sub_cancel, List.take_of_length_le (by simp)]
    simp only [List.length_append, List.length_map] at this
    omega
  · intro i a b' pos m ha hb hp hm
    obtain ⟨-, rfl⟩ := h.entry_get ha
    obtain ⟨h2, rfl⟩ := h.entry_get hb
    have hlt : i < done.length := by omega
    rw [hbs, List.getElem?_map, List.getElem?_eq_getElem hlt] at hp
    rw [hbb, List.getElem?_map, List.getElem?_eq_getElem hlt] at hm
    cases hp
    cases hm
    have hx : (done.map Done.es)[i]? = some done[i].es := by
      rw [List.getElem?_map, List.getElem?_eq_getElem hlt]; rfl
    have hat := h.stored i _ (List.getElem?_eq_getElem hlt)
    obtain ⟨bk, -, -, -, -, -, -, -, hkl, hst⟩ := hat.onDisk hi hl
    rw [flatten_take_succ hx, List.length_append, between_map, ← hv, block_of hx]
    obtain ⟨table, hpay⟩ : ∃ table, basketPayload tab (bkl b0.name tn) done[i].es =
      done[i].es.flatten ++ table := ⟨_, rfl⟩
    refine ⟨bk.key.enc packedNow ++ bk.tail, table, ?_, by rw [hkl, hname]⟩
    have hlo := hat.lo
    have hd := dirPos_ge path
    rw [List.append_assoc, ← hpay]
    refine readAt_stored (by omega) ?_ hst
    rw [hat.bytes, ← hkl, List.length_append (as := bk.key.enc packedNow ++ bk.tail)]
    omega

end Verif
