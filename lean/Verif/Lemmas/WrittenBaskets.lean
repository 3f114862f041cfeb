import Verif.Lemmas.RootBaskets
import Verif.Lemmas.EntryWidth
import Verif.Spec.WrittenBaskets
/-
The baskets that are written are baskets of ROOT.
-/
namespace Verif

theorem Ty.uneven_eq (t : Ty) : t.uneven = t.varies := by cases t <;> rfl

theorem widest_same {es : List (List Byte)} {w : Nat} (h : ∀ e ∈ es, e.length = w) (hw : w < 2 ^ 31) (hne : es ≠ []) :
    widest es = w := by
  have has : asI 4 (w : Int) = w := asI_of (by decide) (by
    unfold InI
    rw [show ((256 ^ 4 : Nat) : Int) = 4294967296 from rfl]
    omega)
  have hgen : ∀ l : List (List Byte), (∀ e ∈ l, e.length = w) →
      l.foldl (fun m e => if m < asI 4 (e.length : Int) then asI 4 (e.length : Int) else m) (w : Int) = w := by
    intro l
    induction l with
    | nil => intro _; rfl
    | cons e l ih =>
      intro h
      rw [List.foldl_cons, h e (List.mem_cons_self ..), has, if_neg (by omega)]
      exact ih fun e he => h e (List.mem_cons_of_mem _ he)
  cases es with
  | nil => exact absurd rfl hne
  | cons e es =>
    unfold widest
    rw [List.foldl_cons, h e (List.mem_cons_self ..), has]
    have : (if (0 : Int) < w then (w : Int) else 0) = w := by split <;> omega
    rw [this]
    exact hgen es fun e he => h e (List.mem_cons_of_mem _ he)

/-! ### One basket -/

/-- The basket of ROOT that was stored. -/
def Done.root (name tn : Str) (tab : Bool) (cycle nevSize : Int) (d : Done) : RootBasket :=
  { key := Key.at name tn (b! "TBasket") cycle (basketPayload tab (bkl name tn) d.es).length (bkl name tn) d.seek 100 false
      (basketPayload tab (bkl name tn) d.es)
    date := packedNow, vers := rversBasket, bufSize := defaultBasketSize, nevSize := nevSize, entries := d.es, table := tab }

theorem Done.root_payload (name tn : Str) (tab : Bool) (cycle nevSize : Int) (d : Done) :
    (d.root name tn tab cycle nevSize).payload = basketPayload tab (bkl name tn) d.es := by
  rw [RootBasket.payload_eq]
  rfl

/-- A stored basket is a basket of ROOT. -/
theorem BasketAt.root {env : Env} {path : Str} {f g : FileW} (hi : Inv path f) (hl : Later env f g)
    {name tn : Str} {tab : Bool} {cycle : Int} {d : Done} (h : BasketAt path f.trace name tn tab cycle d)
    (hname : utf8 name = true) (htn : utf8 tn = true) (hk : bkl name tn ≤ 32767) (hc : InI 2 cycle)
    {r : Reader} (hr : r.img = image g.trace) :
    ∃ nevSize, (tab = false → nevSize = widest d.es) ∧ (d.root name tn tab cycle nevSize).In r := by
  obtain ⟨bk, e1, e2, e3, e4, ⟨e5, e5'⟩, e6, e7, hlen, hst⟩ := h.onDisk hi hl
  have hlo := h.lo
  have hhi := h.hi
  have hbytes := h.bytes
  have hd := dirPos_ge path
  have hpl := basketPayload_length tab (bkl name tn) d.es
  have hfl := length_le_flatten h.full
  have h26 : 26 ≤ bkl name tn := (keyLenFor_ge name tn (b! "TBasket") false false).1
  have hk0 : kStartBigFile = 2000000000 := rfl
  have hflat : d.es.flatten.length ≤ (basketPayload tab (bkl name tn) d.es).length := by
    unfold basketPayload
    simp
  have hhead : (d.root name tn tab cycle bk.nevSize).head = bk.key.enc packedNow ++ bk.tail := by
    rw [RootBasket.head_eq, e1]
    unfold Basket.tail RootBasket.asBasket
    rw [e2, e3, e6, e7]
    rfl
  have hrec : (d.root name tn tab cycle bk.nevSize).record = (bk.key.enc packedNow ++ bk.tail) ++
      basketPayload tab (bkl name tn) d.es := by
    unfold RootBasket.record
    rw [hhead]
    show _ ++ (d.root name tn tab cycle bk.nevSize).payload = _
    rw [Done.root_payload]
  refine ⟨bk.nevSize, e5', ⟨?_, packedNow_lt, (by decide : InI 2 3 ∧ (3 : Int) ≤ 3), (by decide : InI 4 defaultBasketSize),
    ⟨e5, e4⟩, ?_, ?_, ?_, ?_, ?_, ?_, fun _ => ⟨(by decide : InI 4 0), ?_⟩, fun z hz => by cases hz⟩, ?_⟩
  · have hhi' : d.seek + (bkl name tn + (basketPayload tab (bkl name tn) d.es).length) ≤ kStartBigFile := by omega
    have hk' : bkl name tn < 32768 := by omega
    exact Key.at_inRange (by omega) (by omega) hhi' hc (by decide) (by decide) hk' hname htn (by decide)
  · rw [hhead, hlen]; rfl
  · rw [Done.root_payload]; rfl
  · rw [hrec, List.length_append, Int.natCast_add, hlen]; rfl
  · show 0 ≤ d.seek
    omega
  · rw [hhead, Done.root_payload]
    omega
  · show d.es.length < 2 ^ 31
    omega
  · show InI 4 (0 - bkl name tn)
    exact inI4_of (by omega) (by omega)
  · rw [hrec, hr]
    exact hst

/-! ### The baskets of a column -/

theorem lists_of_get {α β} {P : Nat → α → β → Prop} : ∀ (l : List α), (∀ (i : Nat) a, l[i]? = some a → ∃ b, P i a b) →
    ∃ m : List β, m.length = l.length ∧ ∀ (i : Nat) a b, l[i]? = some a → m[i]? = some b → P i a b
  | l, h => by
    induction l generalizing P with
    | nil => exact ⟨[], rfl, fun i a b ha => by cases ha⟩
    | cons a l ih =>
      obtain ⟨b, hb⟩ := h 0 a rfl
      obtain ⟨m, hm, hp⟩ := ih (P := fun i => P (i + 1)) fun i a ha => h (i + 1) a (by rw [List.getElem?_cons_succ]; exact ha)
      refine ⟨b :: m, by simp [hm], fun i x y hx hy => ?_⟩
      cases i with
      | zero => cases hx; cases hy; exact hb
      | succ i => exact hp i x y (by rwa [List.getElem?_cons_succ] at hx) (by rwa [List.getElem?_cons_succ] at hy)

theorem map_of_get {α β γ} {l : List α} {m : List β} {f : α → γ} {g : β → γ} (hl : m.length = l.length)
    (h : ∀ (i : Nat) a b, l[i]? = some a → m[i]? = some b → f a = g b) : l.map f = m.map g := by
  refine List.ext_getElem? fun i => ?_
  rw [List.getElem?_map, List.getElem?_map]
  rcases Nat.lt_or_ge i l.length with hi | hi
  · rw [List.getElem?_eq_getElem hi, List.getElem?_eq_getElem (hl ▸ hi)]
    exact congrArg some (h i _ _ (List.getElem?_eq_getElem hi) (List.getElem?_eq_getElem (hl ▸ hi)))
  · rw [List.getElem?_eq_none hi, List.getElem?_eq_none (hl ▸ hi)]
    rfl

theorem starts_range {α} (xs : List (List α)) : starts 0 xs ++ [xs.flatten.length] =
    (List.range (xs.length + 1)).map fun j => ((xs.take j).map List.length).sum := by
  refine List.ext_getElem? fun i => ?_
  rw [List.getElem?_map]
  rcases Nat.lt_or_ge i (xs.length + 1) with hi | hi
  · rw [List.getElem?_range hi]
    have := starts_get xs 0 i (by omega)
    rw [Nat.zero_add, Nat.zero_add] at this
    rw [this, List.length_flatten]
    rfl
  · rw [List.getElem?_eq_none (by simpa using hi), List.getElem?_eq_none (by simpa using hi)]
    rfl

theorem DoneAt.root {env : Env} {path tn : Str} {g : FileW} {c : Column} {b : WBranch} (hd : DoneAt tn path g c b)
    (hc : c.Holds tn) (htn : utf8 tn = true) (hi : Inv path g) {g' : FileW} (hl : Later env g g') {r : Reader}
    (hr : r.img = image g'.trace) :
    ∃ xs, ColumnBaskets r tn c (b.branch.expected b.branch.data.writeBasket.toNat).data xs := by
  obtain ⟨b0, l0, done, hm, hcd⟩ := hd
  have ht := hcd.tables
  obtain ⟨l, hleaf, -⟩ := ht.leaf
  obtain ⟨s1, s2⟩ := ht.sum
  have hdata := ht.data
  rw [hm.branch] at hdata
  have hwb : b.branch.data.writeBasket.toNat = done.length := by rw [hdata]; rfl
  have hname : b0.name = c.name := hcd.name
  have hshort := hc.short
  have hk : bkl c.name tn ≤ 32767 := by
    have h1 := tstringSizeof_le c.name
    have h2 := tstringSizeof_le tn
    have h3 : tstringSizeof (b! "TBasket") = 8 := by decide
    have hb : bkl c.name tn = 22 + 0 + 4 + tstringSizeof (b! "TBasket") + tstringSizeof c.name +
      tstringSizeof tn + 19 := rfl
    omega
  have hfew := ht.few
  obtain ⟨xs, hxl, hx⟩ := lists_of_get (P := fun (i : Nat) (d : Done) (x : RootBasket) => ∃ nevSize,
      (c.ty.varies = false → nevSize = widest d.es) ∧ x = d.root c.name tn c.ty.varies (i + 1) nevSize ∧ x.In r) done
    (fun i d hd => by
      have hlt : i < done.length := (List.getElem?_eq_some_iff.1 hd).1
      have hat := ht.stored i d hd
      rw [hname] at hat
      obtain ⟨n, h1, h2⟩ := hat.root hi hl hc.text htn hk (inI2_nat (n := i + 1) (by omega)) hr
      exact ⟨_, n, h1, rfl, h2⟩)
  have hget : ∀ (i : Nat) x, xs[i]? = some x → ∃ d nevSize, done[i]? = some d ∧
      (c.ty.varies = false → nevSize = widest d.es) ∧ x = d.root c.name tn c.ty.varies (i + 1) nevSize ∧ x.In r := by
    intro i x hxi
    have hlt : i < done.length := hxl ▸ (List.getElem?_eq_some_iff.1 hxi).1
    obtain ⟨n, h1⟩ := hx i _ x (List.getElem?_eq_getElem hlt) hxi
    exact ⟨_, n, List.getElem?_eq_getElem hlt, h1⟩
  have hes : done.map Done.es = xs.map RootBasket.entries := map_of_get hxl fun i d x h1 h2 => by
    obtain ⟨n, -, rfl, -⟩ := hx i d x h1 h2
    rfl
  have hse : done.map Done.seek = xs.map fun x => x.key.seekKey := map_of_get hxl fun i d x h1 h2 => by
    obtain ⟨n, -, rfl, -⟩ := hx i d x h1 h2
    rfl
  have hby : done.map Done.bytes = xs.map fun x => x.key.nBytes := map_of_get hxl fun i d x h1 h2 => by
    obtain ⟨n, -, rfl, -⟩ := hx i d x h1 h2
    have := (ht.stored i d h1).bytes
    rw [hname] at this
    exact this
  refine ⟨xs, ⟨l, hleaf, ?_, ?_, fun x hx => ?_⟩, ?_, ?_, ?_, fun j x hxj => ?_, ?_, ?_⟩
  · show b.branch.data.basketSeek.take _ = _
    rw [hwb, hdata, ← hse]
    exact List.take_of_length_le (by simp)
  · show b.branch.data.basketBytes.take _ = _
    rw [hwb, hdata, ← hby]
    exact List.take_of_length_le (by simp)
  · obtain ⟨i, hi⟩ := List.getElem?_of_mem hx
    obtain ⟨-, -, -, -, -, h⟩ := hget i x hi
    exact h
  · rw [List.flatMap_def, ← hes, hcd.taken]
  · show b.branch.data.writeBasket = _
    rw [hdata, hxl]
  · show b.branch.data.basketEntry.take _ = _
    rw [hwb, hdata]
    show List.take (done.length + 1) (_ ++ _) = _
    rw [List.take_of_length_le (by simp)]
    have h1 := congrArg (List.map fun n : Nat => (n : Int)) (starts_range (done.map Done.es))
    rw [List.map_append, List.map_map] at h1
    refine h1.trans ?_
    rw [List.length_map, hxl, hes]
    refine List.map_congr_left fun j _ => ?_
    dsimp only [Function.comp]
    rw [← List.map_take, List.map_map]
    rfl
  · obtain ⟨d, n, hd, hn, rfl, -⟩ := hget j x hxj
    refine ⟨rfl, rfl, rfl, rfl, rfl, rfl, c.ty.uneven_eq.symm, fun hev e he => ?_⟩
    have hev : c.ty.varies = false := hev
    have he : e ∈ d.es := he
    obtain ⟨w, hw⟩ := entry_width hm.leaf hev
    have hall : ∀ d ∈ done, ∀ e ∈ d.es, e.length = w := by
      intro d hd e he
      have : e ∈ (done.map Done.es).flatten := List.mem_flatten.2 ⟨_, List.mem_map_of_mem hd, he⟩
      rw [hcd.taken] at this
      obtain ⟨v, hv, rfl⟩ := List.mem_map.1 this
      exact hw v (hc.values v hv)
    have hdm := List.mem_of_getElem? hd
    have hwl := hall d hdm e he
    have hlt : w < 2 ^ 31 := by
      have hat := ht.stored j d hd
      have h1 := hat.hi
      have h2 := hat.lo
      have h3 := hat.bytes
      have h4 : d.es.flatten.length ≤ (basketPayload c.ty.varies (bkl b0.name tn) d.es).length := by
        unfold basketPayload
        simp
      have h26 : 26 ≤ bkl b0.name tn := (keyLenFor_ge b0.name tn (b! "TBasket") false false).1
      have hk0 : kStartBigFile = 2000000000 := rfl
      have h5 : e.length ≤ d.es.flatten.length := (List.sublist_flatten_of_mem he).length_le
      have := dirPos_ge path
      omega
    show (e.length : Int) = n
    rw [hn hev, widest_same (hall d hdm) hlt (List.ne_nil_of_mem he), hwl]
  · show b.branch.data.totBytes = _
    rw [s1, hby]
  · show b.branch.data.zipBytes = b.branch.data.totBytes
    rw [s1, s2]

end Verif
