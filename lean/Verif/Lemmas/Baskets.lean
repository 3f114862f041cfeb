import Verif.Lemmas.Layout
import Verif.Lemmas.TreeCounts
import Verif.Spec.Baskets
/-
What a branch being written looks like: the baskets it has stored, the one being filled.
-/
namespace Verif

/-! ### Where things start -/

/-- Where consecutive lists start, the first one at `n`. -/
def starts {α} : Nat → List (List α) → List Nat
  | _, [] => []
  | n, x :: xs => n :: starts (n + x.length) xs

@[simp] theorem starts_length {α} (n : Nat) (xs : List (List α)) : (starts n xs).length = xs.length := by
  induction xs generalizing n with
  | nil => rfl
  | cons x xs ih => simp [starts, ih]

theorem starts_snoc {α} (n : Nat) (xs : List (List α)) (x : List α) :
    starts n (xs ++ [x]) = starts n xs ++ [n + xs.flatten.length] := by
  induction xs generalizing n with
  | nil => simp [starts]
  | cons y ys ih => simp [starts, ih, Nat.add_assoc]

theorem starts_le {α} {n : Nat} {xs : List (List α)} : ∀ s ∈ starts n xs, n ≤ s ∧ s ≤ n + xs.flatten.length := by
  induction xs generalizing n with
  | nil => intro s hs; cases hs
  | cons y ys ih =>
    intro s hs
    rcases List.mem_cons.1 hs with rfl | hs
    · exact ⟨Nat.le_refl _, Nat.le_add_right _ _⟩
    · have := ih s hs
      simp only [List.flatten_cons, List.length_append]
      omega

theorem length_le_flatten {es : List (List Byte)} (h : ∀ e ∈ es, e ≠ []) :
    es.length ≤ es.flatten.length := by
  induction es with
  | nil => exact Nat.le_refl _
  | cons e es ih =>
    have h1 := List.length_pos_iff.2 (h e (List.mem_cons_self ..))
    have h2 := ih fun x hx => h x (List.mem_cons_of_mem _ hx)
    simp only [List.length_cons, List.flatten_cons, List.length_append]
    omega

/-! ### The bytes of an entry -/

/-- An element leaf puts a header in front of each entry. -/
def Leaf.entryOf (l : Leaf) (bs : List Byte) : List Byte :=
  match l with
  | .element .. => hdrBytes bs.length rversStreamerInfo ++ bs
  | _ => bs

theorem Leaf.entryOf_ge (l : Leaf) (bs : List Byte) : bs.length ≤ (l.entryOf bs).length := by
  unfold Leaf.entryOf
  split <;> simp

/-- What a leaf can become: only the lengths of a string leaf change. -/
inductive LeafLike : Leaf → Leaf → Prop
  | same {l} : LeafLike l l
  | string {v t m min max len max'} : 1 ≤ len → len ≤ kStartBigFile → 0 ≤ max' → max' ≤ kStartBigFile →
      t.len = m → LeafLike (.var .C v t min max) (.var .C v { t with len := len } min max')

theorem LeafLike.entryOf {l l' : Leaf} (h : LeafLike l l') (bs : List Byte) :
    l'.entryOf bs = l.entryOf bs := by
  cases h <;> rfl

/-- Leaves a branch can be made with. -/
def Leaf.Writable : Leaf → Prop
  | .base _ => False
  | .var .C _ t _ max => 1 ≤ t.len ∧ t.len ≤ kStartBigFile ∧ 0 ≤ max ∧ max ≤ kStartBigFile
  | _ => True

theorem Leaf.entryOf_length (l : Leaf) (bs : List Byte) : bs.length ≤ (l.entryOf bs).length := by
  unfold Leaf.entryOf
  split <;> simp

/-- Writing an entry. -/
theorem Leaf.writeToBuffer_ok {l0 l : Leaf} {item : Wr Nat} {bs : List Byte} (h0 : l0.Writable)
    (hl : LeafLike l0 l) (hi : Writes item bs bs.length) {w : WBuffer} (hw : w.WF) :
    ∃ l', l.writeToBuffer item w = .ok (l', w.app (l0.entryOf bs)) ∧
      (bs ≠ [] → (bs.length : Int) ≤ kStartBigFile → LeafLike l0 l') := by
  rw [← hl.entryOf]
  cases l with
  | base t => cases hl; exact h0.elim
  | element v t id lt =>
    refine ⟨.element v t id lt, ?_, fun _ _ => hl⟩
    have : Writes (Leaf.writeToBuffer (.element v t id lt) item)
        ((Leaf.element v t id lt).entryOf bs) (.element v t id lt) := by
      unfold Leaf.writeToBuffer
      dsimp only
      refine Writes.congr (Writes.bind (Writes.framed hi.drop.ne) ?_) (List.append_nil _)
      exact Writes.pure _
    exact this w hw
  | var k v t min max =>
    by_cases hk : k = .C
    · subst hk
      have : Writes (Leaf.writeToBuffer (.var .C v t min max) item) bs (.var .C v
          (if t.len ≤ bs.length then { t with len := asI 4 bs.length } else t) min
          (if max ≤ bs.length then asI 4 bs.length else max)) := by
        unfold Leaf.writeToBuffer
        dsimp only
        refine Writes.congr (Writes.bind hi ?_) (List.append_nil _)
        exact Writes.pure _
      refine ⟨_, this w hw, fun hne hle => ?_⟩
      have hpos := List.length_pos_iff.2 hne
      have he : asI 4 bs.length = bs.length := asI4_nat hle
      obtain ⟨v0, t0, min0, max0, hl0, ht0⟩ : ∃ v0 t0 min0 max0, l0 = .var .C v0 t0 min0 max0 ∧ True := by
        cases hl <;> exact ⟨_, _, _, _, rfl, trivial⟩
      subst hl0
      have ht : v = v0 ∧ min = min0 ∧ (∃ len, t = { t0 with len := len } ∧ 1 ≤ len ∧ len ≤ kStartBigFile) ∧
          0 ≤ max ∧ max ≤ kStartBigFile := by
        cases hl with
        | same => exact ⟨rfl, rfl, ⟨_, rfl, h0.1, h0.2.1⟩, h0.2.2⟩
        | string a b c d e => exact ⟨rfl, rfl, ⟨_, rfl, a, b⟩, c, d⟩
      obtain ⟨rfl, rfl, ⟨len, rfl, l1, l2⟩, m1, m2⟩ := ht
      simp only [he]
      by_cases c1 : len ≤ (bs.length : Int)
      · rw [if_pos c1]
        refine LeafLike.string (by omega) hle ?_ ?_ rfl <;> split <;> omega
      · rw [if_neg c1]
        refine LeafLike.string l1 l2 ?_ ?_ rfl <;> split <;> omega
    · refine ⟨.var k v t min max, ?_, fun _ _ => hl⟩
      cases k <;> first
        | exact absurd rfl hk
        | exact (show Writes _ _ _ by
            unfold Leaf.writeToBuffer
            dsimp only
            refine Writes.congr (Writes.bind hi ?_) (List.append_nil _)
            exact Writes.pure _) w hw

/-! ### Baskets -/

/-- What is stored behind the key of a basket: the entries, and for entries of variable size the table
of their positions. -/
def basketPayload (tab : Bool) (k : Int) (es : List (List Byte)) : List Byte :=
  es.flatten ++ if tab then encI 4 (es.length + 1) ++
    ((starts 0 es).flatMap (fun (s : Nat) => encI 4 ((s : Int) + k)) ++ encI 4 0) else []

/-- The length of the longest entry, as the writer finds it. -/
def widest (es : List (List Byte)) : Int :=
  es.foldl (fun m e => if m < asI 4 e.length then asI 4 e.length else m) 0

/-- The length of the key of a basket. -/
abbrev bkl (name tn : Str) : Int := kl name tn (b! "TBasket")

/-- A basket that has been stored: its entries, and what the tables of the branch say of it. -/
structure Done where
  es : List (List Byte)
  bytes : Int
  seek : Int

/-- The basket is on disk. -/
structure BasketAt (path : Str) (T : List DiskWrite) (name tn : Str) (tab : Bool) (cycle : Int) (d : Done) :
    Prop where
  lo : dirPos path + 60 ≤ d.seek
  bytes : d.bytes = bkl name tn + (basketPayload tab (bkl name tn) d.es).length
  hi : d.seek + d.bytes ≤ kStartBigFile
  full : ∀ e ∈ d.es, e ≠ []
  record : ∃ bk : Basket, bk.key = Key.at name tn (b! "TBasket") cycle
      (basketPayload tab (bkl name tn) d.es).length (bkl name tn) d.seek 100 false
      (basketPayload tab (bkl name tn) d.es) ∧
    bk.nevBuf = d.es.length ∧ bk.last = bkl name tn + d.es.flatten.length ∧
    0 ≤ bk.nevSize ∧ (InI 4 bk.nevSize ∧ (tab = false → bk.nevSize = widest d.es)) ∧ bk.bufSize = defaultBasketSize ∧ bk.rvers = rversBasket ∧
    ∀ w ∈ bk.key.twoWrites (bk.key.enc packedNow ++ bk.tail), w ∈ T

theorem BasketAt.mono {path : Str} {T T' : List DiskWrite} {name tn : Str} {tab : Bool} {cycle : Int}
    {d : Done} (h : BasketAt path T name tn tab cycle d) (hT : ∀ w ∈ T, w ∈ T') :
    BasketAt path T' name tn tab cycle d := by
  obtain ⟨bk, a, b, c, d1, d2, e, f, g⟩ := h.record
  exact ⟨h.lo, h.bytes, h.hi, h.full, bk, a, b, c, d1, d2, e, f, fun w hw => hT w (g w hw)⟩

/-- The branch and its tables: `n` entries taken, the baskets `done` stored. -/
structure Tables (path tn : Str) (tab : Bool) (T : List DiskWrite) (b0 : Branch) (l0 : Leaf)
    (done : List Done) (n : Nat) (b : Branch) : Prop where
  elem : b.elem = b0.elem
  subs : b.branches = b0.branches
  leaf : ∃ l, b.data.leaves = [l] ∧ LeafLike l0 l
  data : b.data = { b0.data with
    entries := n, entryNumber := n, leaves := b.data.leaves
    totBytes := b.data.totBytes, zipBytes := b.data.zipBytes, maxBaskets := b.data.maxBaskets
    basketBytes := done.map Done.bytes
    basketEntry := (starts 0 (done.map Done.es)).map (fun (s : Nat) => (s : Int)) ++
      [((done.map Done.es).flatten.length : Int)]
    basketSeek := done.map Done.seek
    writeBasket := done.length }
  tot : 0 ≤ b.data.totBytes ∧ b.data.totBytes ≤ done.length * kStartBigFile
  zip : 0 ≤ b.data.zipBytes ∧ b.data.zipBytes ≤ done.length * kStartBigFile
  sum : b.data.totBytes = (done.map Done.bytes).sum ∧ b.data.zipBytes = (done.map Done.bytes).sum
  few : done.length ≤ 32767
  stored : ∀ (i : Nat) d, done[i]? = some d → BasketAt path T b0.name tn tab (i + 1) d

theorem Tables.mono {path tn : Str} {tab : Bool} {T T' : List DiskWrite} {b0 : Branch} {l0 : Leaf}
    {done : List Done} {n : Nat} {b : Branch} (h : Tables path tn tab T b0 l0 done n b)
    (hT : ∀ w ∈ T, w ∈ T') : Tables path tn tab T' b0 l0 done n b :=
  ⟨h.elem, h.subs, h.leaf, h.data, h.tot, h.zip, h.sum, h.few, fun i d hd => (h.stored i d hd).mono hT⟩

theorem Tables.name {path tn : Str} {tab : Bool} {T : List DiskWrite} {b0 : Branch} {l0 : Leaf}
    {done : List Done} {n : Nat} {b : Branch} (h : Tables path tn tab T b0 l0 done n b) :
    b.name = b0.name := by
  unfold Branch.name; rw [h.data]

/-- The basket being filled. -/
structure Current (name tn : Str) (tab : Bool) (cycle : Int) (cur : List (List Byte)) (bk : WBasket) :
    Prop where
  kname : bk.basket.key.name = name
  title : bk.basket.key.title = tn
  cycle : bk.basket.key.cycle = cycle
  keyLen : bk.basket.key.keyLen = bkl name tn
  nev : bk.basket.nevBuf = cur.length
  plain : tab = false → bk.basket.offsets = []
  table : tab = true → bk.basket.offsets ≠ [] ∧ bk.basket.offsets.take cur.length =
    (starts 0 cur).map fun (s : Nat) => asI 4 ((s : Int) + bkl name tn)
  wf : bk.wbuf.WF
  bytes : bk.wbuf.p = cur.flatten
  full : ∀ e ∈ cur, e ≠ []
  size0 : 0 ≤ bk.basket.nevSize
  size : InI 4 bk.basket.nevSize
  width : tab = false → bk.basket.nevSize = widest cur
  buf : bk.basket.bufSize = defaultBasketSize
  rvers : bk.basket.rvers = rversBasket

theorem encI_asI (k : Nat) (v : Int) : encI k (asI k v) = encI k v := by
  unfold encI asI
  congr 1
  exact wrapI_toSigned (wrapI_lt k v)


/-- A branch that has just been made. -/
structure FreshBranch (tab : Bool) (b0 : Branch) (l0 : Leaf) : Prop where
  writable : l0.Writable
  leaves : b0.data.leaves = [l0]
  size : b0.data.basketSize = defaultBasketSize
  offs : b0.data.entryOffsetLen = if tab then 1000 else 0
  max : b0.data.maxBaskets = defaultMaxBaskets
  entry : b0.data.basketEntry = [0]
  bytes : b0.data.basketBytes = []
  seek : b0.data.basketSeek = []
  wb : b0.data.writeBasket = 0
  entries : b0.data.entries = 0
  number : b0.data.entryNumber = 0
  tot : b0.data.totBytes = 0
  zip : b0.data.zipBytes = 0

theorem FreshBranch.tables {path tn : Str} {tab : Bool} {T : List DiskWrite} {b0 : Branch} {l0 : Leaf}
    (h : FreshBranch tab b0 l0) : Tables path tn tab T b0 l0 [] 0 b0 := by
  obtain ⟨⟨⟩, e, s⟩ := b0
  obtain ⟨h1, h2, h3, h4, h5, h6, h7, h8, h9, h10, h11, h12, h13⟩ := h
  simp only [Branch.data] at *
  subst h2 h6 h7 h8 h9 h10 h11 h12 h13
  exact ⟨rfl, rfl, ⟨l0, rfl, .same⟩, rfl, ⟨Int.le_refl _, by simp [Branch.data]⟩, ⟨Int.le_refl _, by simp [Branch.data]⟩, ⟨rfl, rfl⟩, Nat.zero_le _,
    (fun i d hd => by cases hd)⟩

theorem inI2_nat {n : Nat} (h : n ≤ 32767) : InI 2 (n : Int) := by
  have : ((256 ^ 2 : Nat) : Int) = 65536 := rfl
  unfold InI
  rw [this]
  omega

theorem inI4_le {n : Int} (h : 0 ≤ n) (h' : n ≤ 2000000000) : InI 4 n := by
  have : ((256 ^ 4 : Nat) : Int) = 4294967296 := rfl
  unfold InI
  rw [this]
  omega

theorem inI2_le {n : Nat} (h : InI 2 ((n : Int) + 1)) : n ≤ 32766 := by
  have := h.2
  rw [show ((256 ^ 2 : Nat) : Int) = 65536 from rfl] at this
  omega

theorem asI_le_natCast (k n : Nat) : asI k (n : Int) ≤ n := by
  unfold asI toSigned wrapI
  have h : ((n : Int) % ((256 ^ k : Nat) : Int)).toNat = n % 256 ^ k := by
    rw [← Int.natCast_emod, Int.toNat_natCast]
  have := Nat.mod_le n (256 ^ k)
  split <;> rw [h] <;> omega

section
variable {path tn : Str} {tab : Bool} {b0 : Branch} {l0 : Leaf}

theorem Current.new (h0 : FreshBranch tab b0 l0) {f : FileW} (hi : Inv path f) {done : List Done} {n : Nat}
    {b b' : WBranch} {bk : WBasket} {T : List DiskWrite}
    (ht : Tables path tn tab T b0 l0 done n b.branch)
    (h : b.createNewBasket tn f = .ok (b', bk)) :
    Tables path tn tab T b0 l0 done n b'.branch ∧ done.length ≤ 32766 ∧ b'.items = b.items ∧
      Current b0.name tn tab (done.length + 1) [] bk := by
  unfold WBranch.createNewBasket at h
  have hwb : b.branch.data.writeBasket = done.length := by rw [ht.data]
  have has : asI 2 (done.length : Int) = done.length := asI_of (by decide) (inI2_nat ht.few)
  have hoff : b.branch.data.entryOffsetLen = if tab then 1000 else 0 := by rw [ht.data]; exact h0.offs
  have hsize : b.branch.data.basketSize = defaultBasketSize := by rw [ht.data]; exact h0.size
  simp only [hwb, has] at h
  split at h
  · cases h
  · next hc =>
    have hc := Classical.not_not.1 hc
    injection h with h
    obtain ⟨rfl, rfl⟩ := Prod.mk.inj h
    refine ⟨?_, inI2_le hc, rfl, ?_⟩
    · split
      · exact ⟨ht.elem, ht.subs, ht.leaf,
          congrArg (fun d : BranchData => { d with maxBaskets := (done.length : Int), writeBasket := (done.length : Int) }) ht.data,
          ht.tot, ht.zip, ht.sum, ht.few, ht.stored⟩
      · exact ⟨ht.elem, ht.subs, ht.leaf, ht.data, ht.tot, ht.zip, ht.sum, ht.few, ht.stored⟩
    · unfold Basket.newFromBranch
      rw [hoff, hsize, ht.name]
      refine ⟨rfl, rfl, rfl, hi.keyLenFor _ _ _, rfl, ?_, ?_, rfl, rfl, (fun e he => by cases he), ?_, ?_, ?_, rfl, rfl⟩
      · intro h; subst h; rfl
      · intro h; subst h; exact ⟨(fun h => by simp at h), rfl⟩
      · dsimp only; split <;> omega
      · dsimp only; split <;> exact inI4_le (by omega) (by omega)
      · intro h; subst h; rfl

/-- The offset of a new entry goes into the table. -/
theorem Current.update {name : Str} {cycle : Int} {cur : List (List Byte)} {bk bk' : WBasket}
    (h : Current name tn tab cycle cur bk) (hs : cur.flatten.length < 32768)
    (hu : bk.update bk.wbuf.p.length = .ok bk') :
    bk'.wbuf = bk.wbuf ∧ bk'.basket.key = bk.basket.key ∧ bk'.basket.bufSize = bk.basket.bufSize ∧
      bk'.basket.rvers = bk.basket.rvers ∧ bk'.basket.nevBuf = cur.length + 1 ∧
      0 ≤ bk'.basket.nevSize ∧ (InI 4 bk'.basket.nevSize ∧ (tab = false → bk'.basket.nevSize = bk.basket.nevSize)) ∧
      (tab = false → bk'.basket.offsets = []) ∧
      (tab = true → bk'.basket.offsets ≠ [] ∧ bk'.basket.offsets.take (cur.length + 1) =
        (starts 0 cur).map (fun (s : Nat) => asI 4 ((s : Int) + bkl name tn)) ++
          [asI 4 ((cur.flatten.length : Int) + bkl name tn)]) := by
  have hlen := length_le_flatten h.full
  have hnev := h.nev
  unfold WBasket.update at hu
  dsimp only at hu
  by_cases ho : bk.basket.offsets = []
  · rw [if_pos ho] at hu
    injection hu with hu
    subst hu
    refine ⟨rfl, rfl, rfl, rfl, by simp only [hnev], h.size0, ⟨h.size, fun _ => rfl⟩, fun _ => ho, fun ht => ?_⟩
    exact absurd ho (h.table ht).1
  · rw [if_neg ho] at hu
    have htab : tab = true := by
      cases tab with
      | true => rfl
      | false => exact absurd (h.plain rfl) ho
    obtain ⟨-, htk⟩ := h.table htab
    have hle : cur.length ≤ bk.basket.offsets.length := by
      have := congrArg List.length htk
      simp only [List.length_take, List.length_map, starts_length] at this
      omega
    obtain ⟨z, hg⟩ : ∃ z, bk.basket.grow.offsets = bk.basket.offsets ++ z := by
      unfold Basket.grow
      split
      · exact ⟨_, rfl⟩
      · exact ⟨[], (List.append_nil _).symm⟩
    have hgn : bk.basket.grow.nevBuf = cur.length ∧ bk.basket.grow.key = bk.basket.key ∧
        bk.basket.grow.bufSize = bk.basket.bufSize ∧ bk.basket.grow.rvers = bk.basket.rvers := by
      unfold Basket.grow
      split <;> exact ⟨hnev, rfl, rfl, rfl⟩
    have hgs : 0 ≤ bk.basket.grow.nevSize ∧ InI 4 bk.basket.grow.nevSize := by
      have h1 := h.size0
      have h2 := h.size
      unfold Basket.grow
      split
      · dsimp only
        refine ⟨by split <;> omega, inI4_le ?_ ?_⟩ <;> split <;> omega
      · exact ⟨h1, h2⟩
    split at hu
    · cases hu
    · next hb =>
      rw [hgn.1] at hb
      injection hu with hu
      subst hu
      refine ⟨rfl, hgn.2.1, hgn.2.2.1, hgn.2.2.2, by simp only [hgn.1], hgs.1, ⟨hgs.2, fun ht => by rw [ht] at htab; cases htab⟩,
        (fun ht => by rw [ht] at htab; cases htab), fun _ => ⟨?_, ?_⟩⟩
      · dsimp only
        intro e
        have := congrArg List.length e
        simp only [List.length_set, List.length_nil] at this
        omega
      · dsimp only
        rw [hgn.1, hg, h.bytes, h.keyLen]
        rw [hg] at hb
        have hlt : cur.length < (bk.basket.offsets ++ z).length := by omega
        simp only [Int.toNat_natCast]
        rw [List.take_add_one, List.take_set_of_le (Nat.le_refl _), List.getElem?_set_self hlt,
          List.take_append_of_le_length hle, htk]
        rfl

/-- One entry more. -/
theorem Current.fill (h0 : FreshBranch tab b0 l0) {done : List Done} {n : Nat} {T : List DiskWrite}
    {b b' : WBranch} {cycle : Int} {cur : List (List Byte)} {bk bk' : WBasket} {item : Wr Nat}
    {rest : List (Option (Wr Nat))} {m : Int} {bs : List Byte}
    (ht : Tables path tn tab T b0 l0 done n b.branch) (hc : Current b0.name tn tab cycle cur bk)
    (hs : cur.flatten.length < 32768) (hi : Writes item bs bs.length) (hne : bs ≠ [])
    (h : b.fill bk item rest = .ok (b', bk', m)) :
    Current b0.name tn tab cycle (cur ++ [l0.entryOf bs]) bk' ∧ b'.items = rest ∧ b'.basket = some bk' ∧
      m = asI 4 (l0.entryOf bs).length ∧
      (((l0.entryOf bs).length : Int) ≤ kStartBigFile →
        Tables path tn tab T b0 l0 done (n + 1) b'.branch) := by
  obtain ⟨l, hl, hlike⟩ := ht.leaf
  have hlen := l0.entryOf_length bs
  have hpos := List.length_pos_iff.2 hne
  unfold WBranch.fill at h
  rw [hl] at h
  dsimp only at h
  obtain ⟨bk1, hu, h⟩ := Res.ok_bind.1 h
  obtain ⟨u1, u2, u3, u4, u5, u6, u7, u8, u9⟩ := hc.update hs hu
  obtain ⟨l', hw, hl'⟩ := Leaf.writeToBuffer_ok h0.writable hlike hi (u1 ▸ hc.wf : bk1.wbuf.WF)
  obtain ⟨⟨l2, w2⟩, hw2, h⟩ := Res.ok_bind.1 h
  rw [hw] at hw2
  injection hw2 with hw2
  obtain ⟨rfl, rfl⟩ := Prod.mk.inj hw2
  cases h
  have hm : asI 4 (((bk1.wbuf.app (l0.entryOf bs)).p.length : Int) - bk.wbuf.p.length) =
      asI 4 (l0.entryOf bs).length := by
    congr 1
    rw [u1, WBuffer.app_p, List.length_append]
    omega
  simp only [hm]
  refine ⟨⟨?_, ?_, ?_, ?_, ?_, ?_, ?_, ?_, ?_, ?_, ?_, ?_, ?_, ?_, ?_⟩, trivial, trivial, trivial, fun hle => ?_⟩
  · rw [u2]; exact hc.kname
  · rw [u2]; exact hc.title
  · rw [u2]; exact hc.cycle
  · rw [u2]; exact hc.keyLen
  · simp only [u5, List.length_append, List.length_singleton]
    omega
  · exact u8
  · intro htab
    refine ⟨(u9 htab).1, ?_⟩
    simp only [List.length_append, List.length_singleton, starts_snoc, List.map_append, List.map_cons,
      List.map_nil, Nat.zero_add]
    exact (u9 htab).2
  · rw [u1]; exact hc.wf.app _
  · rw [WBuffer.app_p, u1, hc.bytes]
    simp
  · intro e he
    rcases List.mem_append.1 he with he | he
    · exact hc.full e he
    · rw [List.mem_singleton.1 he]
      intro h
      rw [h] at hlen
      simp only [List.length_nil] at hlen
      omega
  · dsimp only
    split <;> omega
  · dsimp only
    split
    · exact asI_inI (by decide) _
    · exact u7.1
  · intro htab
    dsimp only
    rw [u7.2 htab, hc.width htab]
    unfold widest
    rw [List.foldl_append]
    rfl
  · rw [u3]; exact hc.buf
  · rw [u4]; exact hc.rvers
  · refine ⟨ht.elem, ht.subs, ⟨l', rfl, hl' hne (by omega)⟩, ?_, ht.tot, ht.zip, ht.sum, ht.few, ht.stored⟩
    have := congrArg (fun d : BranchData => { d with
      entries := d.entries + 1, entryNumber := d.entryNumber + 1, leaves := [l'] }) ht.data
    exact this

/-- The offsets of the table. -/
theorem offsets_enc (k : Int) (es : List (List Byte)) :
    ((starts 0 es).map (fun (s : Nat) => asI 4 ((s : Int) + k))).flatMap (encI 4) =
      (starts 0 es).flatMap (fun (s : Nat) => encI 4 ((s : Int) + k)) := by
  rw [List.flatMap_map]
  congr 1
  funext s
  exact encI_asI 4 _

/-- What is stored of the basket being filled. -/
theorem Current.payload {name : Str} {cycle : Int} {cur : List (List Byte)} {bk : WBasket} {w : WBuffer}
    (hc : Current name tn tab cycle cur bk) (hp : bk.basket.Payload bk.wbuf w) :
    w.p = basketPayload tab (bkl name tn) cur := by
  rw [hp.bytes hc.wf, hc.bytes]
  unfold basketPayload Basket.tableBytes
  congr 1
  cases tab with
  | false => rw [if_pos (hc.plain rfl)]; rfl
  | true =>
    obtain ⟨h1, h2⟩ := hc.table rfl
    rw [if_neg h1, if_pos rfl, hc.nev, Int.toNat_natCast, h2, offsets_enc]

/-- The basket is stored. -/
theorem Current.flush {f f' : FileW} (hi : Inv path f) {done : List Done}
    {n : Nat} {b b' : WBranch} {cur : List (List Byte)} {bk : WBasket}
    (ht : (cur.flatten.length : Int) ≤ kStartBigFile → Tables path tn tab f.trace b0 l0 done n b.branch)
    (hn : n = (done.map Done.es).flatten.length + cur.length) (hbk : b.basket = some bk) (hc : Current b0.name tn tab (done.length + 1) cur bk)
    (hfew : done.length ≤ 32766) (h : b.flush f = (.ok b', f'))
    (hb : ∀ w ∈ f'.trace, w.pos + w.data.length ≤ 2000000000) :
    f'.Below2GB ∧ Inv path f' ∧ ∃ d bk' n' m', d.es = cur ∧
      Tables path tn tab f'.trace b0 l0 (done ++ [d]) n b'.branch ∧ b'.items = b.items ∧
      f'.header.end_ = f.header.end_ + d.bytes ∧ bk.writeToFile f = (.ok (bk', n', m'), f') := by
  unfold WBranch.flush at h
  rw [hbk] at h
  obtain ⟨x, f1, h1, h⟩ := Fs.ok_bind.1 h
  obtain ⟨hx, rfl⟩ := Fs.ok_orPanic.1 h1
  injection hx with hx
  subst hx
  obtain ⟨⟨bk', n', m'⟩, f2, h1, h⟩ := Fs.ok_bind.1 h
  obtain ⟨hb', hf'⟩ := Fs.ok_pure.1 h
  subst hf'
  have hbelow : f2.Below2GB := by
    obtain ⟨w, -, -, -, -, hbb, -, -, hf⟩ := WBasket.writeToFile_ok hi.good h1
    have hk : bk'.basket.key = basketKey f bk.basket w.p := by rw [hbb]
    have hmem : (⟨(f.header.end_ + kl bk.basket.key.name bk.basket.key.title (b! "TBasket")).toNat, w.p⟩ :
        DiskWrite) ∈ f2.trace := by
      rw [hf]
      unfold afterBasket
      refine List.mem_append_right _ (List.mem_cons_of_mem _ (List.mem_singleton.2 ?_))
      rw [hk, ← hi.keyLenFor]
      rfl
    have hlo := hi.lo
    have hd := dirPos_ge path
    have h26 := (keyLenFor_ge bk.basket.key.name bk.basket.key.title (b! "TBasket") false false).1
    have hd2 := hb _ hmem
    simp only at hd2
    refine ⟨?_, hb⟩
    rw [hf]
    unfold afterBasket
    rw [hk]
    unfold basketKey
    rw [hi.keyLenFor]
    have e : asI 4 w.p.length = w.p.length := asI4_nat (by simp only [kStartBigFile]; omega)
    simp only [FileW.ended, Key.at, e]
    generalize kl bk.basket.key.name bk.basket.key.title (b! "TBasket") = K at *
    omega
  obtain ⟨hi2, w, hp, hkey, hf2, hbb, hn', hm', hpl⟩ := basket_inv hi h1 hbelow
  refine ⟨hbelow, hi2, ⟨cur, bk'.basket.key.nBytes, bk'.basket.key.seekKey⟩, bk', n', m', rfl, ?_, ?_, ?_, h1⟩
  · rw [hc.kname, hc.title, hc.cycle, hc.payload hp] at hkey
    have hend := hbelow.end_
    rw [hf2] at hend
    unfold afterBasket at hend
    rw [hkey] at hend
    have hlo := hi.lo
    have hd := dirPos_ge path
    have h26 : 26 ≤ bkl b0.name tn := (keyLenFor_ge b0.name tn (b! "TBasket") false false).1
    have hend : f.header.end_ + (bkl b0.name tn + (basketPayload tab (bkl b0.name tn) cur).length) ≤
      2000000000 := hend
    have hfl : cur.flatten.length ≤ (basketPayload tab (bkl b0.name tn) cur).length := by
      unfold basketPayload
      simp
    have hnb : bk'.basket.key.nBytes = bkl b0.name tn + (basketPayload tab (bkl b0.name tn) cur).length := by
      rw [hkey]; rfl
    have hsk : bk'.basket.key.seekKey = f.header.end_ := by rw [hkey]; rfl
    have hn2 : n' = bkl b0.name tn + (basketPayload tab (bkl b0.name tn) cur).length := by
      rw [hn', hkey]; rfl
    have hm2 : m' = bkl b0.name tn + (basketPayload tab (bkl b0.name tn) cur).length := by
      rw [hm', hnb]
    have htr : f2.trace = f.trace ++ bk'.basket.key.twoWrites (bk'.basket.key.enc packedNow ++ bk'.basket.tail) := by
      rw [hf2]; rfl
    have hmono : ∀ w ∈ f.trace, w ∈ f2.trace := by
      intro w hw; rw [htr]; exact List.mem_append_left _ hw
    have hfew' : (done ++ [⟨cur, bk'.basket.key.nBytes, bk'.basket.key.seekKey⟩] : List Done).length = done.length + 1 := by
      simp
    have hbytes : (bkl b0.name tn + (basketPayload tab (bkl b0.name tn) cur).length : Int) ≤ kStartBigFile := by
      simp only [kStartBigFile]
      omega
    have hpos : 0 ≤ (bkl b0.name tn + (basketPayload tab (bkl b0.name tn) cur).length : Int) := by
      omega
    have ht := ht (by simp only [kStartBigFile] at *; omega)
    rw [← hb']
    obtain ⟨t1, t2⟩ := ht.tot
    obtain ⟨z1, z2⟩ := ht.zip
    obtain ⟨s1, s2⟩ := ht.sum
    refine ⟨ht.elem, ht.subs, ht.leaf, ?_, ?_, ?_, ?_, by omega, ?_⟩
    · have := congrArg (fun d : BranchData => { d with
        totBytes := d.totBytes + n'
        zipBytes := d.zipBytes + m'
        basketBytes := d.basketBytes ++ [bk'.basket.key.nBytes]
        basketEntry := d.basketEntry ++ [d.entries]
        basketSeek := d.basketSeek ++ [bk'.basket.key.seekKey]
        writeBasket := d.writeBasket + 1 }) ht.data
      refine this.trans ?_
      simp only [List.map_append, List.map_cons, List.map_nil, starts_snoc, List.flatten_append,
        List.flatten_cons, List.flatten_nil, List.append_nil, List.length_append, Nat.zero_add, hn,
        List.length_singleton]
      rfl
    · have : (((done ++ [⟨cur, bk'.basket.key.nBytes, bk'.basket.key.seekKey⟩] : List Done).length : Nat) : Int) *
          kStartBigFile = done.length * kStartBigFile + kStartBigFile := by
        rw [hfew']; push_cast; rw [Int.add_mul, Int.one_mul]
      rw [this]
      show 0 ≤ b.branch.data.totBytes + n' ∧ b.branch.data.totBytes + n' ≤ _
      omega
    · have : (((done ++ [⟨cur, bk'.basket.key.nBytes, bk'.basket.key.seekKey⟩] : List Done).length : Nat) : Int) *
          kStartBigFile = done.length * kStartBigFile + kStartBigFile := by
        rw [hfew']; push_cast; rw [Int.add_mul, Int.one_mul]
      rw [this]
      show 0 ≤ b.branch.data.zipBytes + m' ∧ b.branch.data.zipBytes + m' ≤ _
      omega
    · have : ((done ++ [⟨cur, bk'.basket.key.nBytes, bk'.basket.key.seekKey⟩] : List Done).map Done.bytes).sum =
          (done.map Done.bytes).sum + bk'.basket.key.nBytes := by
        rw [List.map_append, List.sum_append]
        show _ + (bk'.basket.key.nBytes + 0) = _
        rw [Int.add_zero]
      rw [this]
      show b.branch.data.totBytes + n' = _ ∧ b.branch.data.zipBytes + m' = _
      omega
    · intro i d hd
      rcases Nat.lt_or_ge i done.length with hlt | hge
      · rw [List.getElem?_append_left hlt] at hd
        exact (ht.stored i d hd).mono hmono
      · rw [List.getElem?_append_right hge] at hd
        have hz : i - done.length = 0 := by
          rcases hi0 : i - done.length with _ | j
          · rfl
          · rw [hi0] at hd; cases hd
        rw [hz] at hd
        injection hd with hd
        subst hd
        have hil : i = done.length := by omega
        subst hil
        refine ⟨?_, hnb, ?_, hc.full, bk'.basket, ?_, ?_, ?_, ?_, ?_, ?_, ?_, ?_⟩
        · rw [hsk]; exact hlo
        · rw [hsk, hnb]
          simp only [kStartBigFile]
          omega
        · rw [hsk]; exact hkey
        · rw [hbb]; exact hc.nev
        · rw [hbb]
          dsimp only
          rw [hc.keyLen, hc.bytes, asI4_nat (by simp only [kStartBigFile] at *; omega)]
        · rw [hbb]; exact hc.size0
        · rw [hbb]; exact ⟨hc.size, hc.width⟩
        · rw [hbb]; exact hc.buf
        · rw [hbb]; exact hc.rvers
        · intro w hw
          rw [htr]
          exact List.mem_append_right _ hw
  · rw [← hb']
  · rw [hf2]
    unfold afterBasket
    rw [hkey]
    rfl

/-- A branch being written: the baskets stored, the entries of the basket being filled. -/
structure Filling (path tn : Str) (tab : Bool) (b0 : Branch) (l0 : Leaf) (f : FileW) (done : List Done)
    (cur : List (List Byte)) (b : WBranch) : Prop where
  inv : Inv path f
  tables : Tables path tn tab f.trace b0 l0 done ((done.map Done.es).flatten.length + cur.length) b.branch
  basket : (b.basket = none ∧ done = [] ∧ cur = []) ∨
    ∃ bk, b.basket = some bk ∧ Current b0.name tn tab (done.length + 1) cur bk ∧ done.length ≤ 32766
  small : cur.flatten.length < 32768

theorem Filling.mono {f f' : FileW} {done : List Done} {cur : List (List Byte)} {b : WBranch}
    (h : Filling path tn tab b0 l0 f done cur b) (hi : Inv path f') (ht : ∀ w ∈ f.trace, w ∈ f'.trace) :
    Filling path tn tab b0 l0 f' done cur b :=
  ⟨hi, h.tables.mono ht, h.basket, h.small⟩

/-- The file is left alone, or a basket is stored. -/
def Stores (f f' : FileW) : Prop :=
  f' = f ∨ ∃ bk r, WBasket.writeToFile bk f = (.ok r, f') ∧ f'.Below2GB

theorem Filling.currentBasket (h0 : FreshBranch tab b0 l0) {f f' : FileW} {done : List Done}
    {cur : List (List Byte)} {b b' : WBranch} {bk : WBasket} (h : Filling path tn tab b0 l0 f done cur b)
    (hw : b.currentBasket tn f = (.ok (b', bk), f')) :
    f' = f ∧ b'.items = b.items ∧ b'.basket = some bk ∧ Filling path tn tab b0 l0 f done cur b' ∧
      Current b0.name tn tab (done.length + 1) cur bk ∧ done.length ≤ 32766 := by
  unfold WBranch.currentBasket at hw
  rcases h.basket with ⟨hb, rfl, rfl⟩ | ⟨bk0, hb, hc, hf⟩
  · rw [hb] at hw
    dsimp only at hw
    obtain ⟨_, _, h1, hw1⟩ := Fs.ok_bind.1 hw
    obtain ⟨rfl, rfl⟩ := Fs.ok_get.1 h1
    obtain ⟨⟨b1, bk1⟩, _, h2, hw2⟩ := Fs.ok_bind.1 hw1
    obtain ⟨h1, rfl⟩ := Fs.ok_lift.1 h2
    obtain ⟨hx, rfl⟩ := Fs.ok_pure.1 hw2
    obtain ⟨ht, hl, hit, hc⟩ := Current.new h0 h.inv h.tables h1
    cases hx
    exact ⟨rfl, hit, rfl, ⟨h.inv, ht, .inr ⟨_, rfl, hc, hl⟩, h.small⟩, hc, hl⟩
  · rw [hb] at hw
    obtain ⟨hx, rfl⟩ := Fs.ok_pure.1 hw
    cases hx
    exact ⟨rfl, rfl, hb, h, hc, hf⟩

/-- An entry is written. -/
theorem Filling.write (h0 : FreshBranch tab b0 l0) {f f' : FileW} {done : List Done}
    {cur : List (List Byte)} {b b' : WBranch} {m : Option Int} {item : Wr Nat} {bs : List Byte}
    {rest : List (Option (Wr Nat))} (h : Filling path tn tab b0 l0 f done cur b)
    (hit : b.items = some item :: rest) (hi : Writes item bs bs.length) (hne : bs ≠ [])
    (hw : b.write tn f = (.ok (b', m), f')) (hb : ∀ w ∈ f'.trace, w.pos + w.data.length ≤ 2000000000) :
    b'.items = rest ∧ Stores f f' ∧ m = some (asI 4 (l0.entryOf bs).length) ∧
      ((f' = f ∧ cur.flatten.length + 2 * (l0.entryOf bs).length < 32768 ∧
          Filling path tn tab b0 l0 f' done (cur ++ [l0.entryOf bs]) b') ∨
        ∃ d, d.es = cur ++ [l0.entryOf bs] ∧ f'.header.end_ = f.header.end_ + d.bytes ∧
          defaultBasketSize ≤ (d.es.flatten.length : Int) + (l0.entryOf bs).length ∧
          Filling path tn tab b0 l0 f' (done ++ [d]) [] b') := by
  unfold WBranch.write at hw
  obtain ⟨⟨b1, bk⟩, _, h1, hw1⟩ := Fs.ok_bind.1 hw
  clear hw
  obtain ⟨rfl, hit1, hb1, hfl, hc, hfew⟩ := h.currentBasket h0 h1
  dsimp only at hw1
  rw [hit1, hit] at hw1
  dsimp only at hw1
  obtain ⟨⟨b2, bk2, n⟩, _, h2', hw⟩ := Fs.ok_bind.1 hw1
  clear hw1
  obtain ⟨h2, rfl⟩ := Fs.ok_lift.1 h2'
  obtain ⟨hc2, hit2, hb2, hn, ht2⟩ := Current.fill h0 hfl.tables hc hfl.small hi hne h2
  obtain ⟨b3, f3, h3, hw3⟩ := Fs.ok_bind.1 hw
  clear hw
  obtain ⟨hx, rfl⟩ := Fs.ok_pure.1 hw3
  cases hx
  unfold WBranch.spill at h3
  have hsize : b2.branch.data.basketSize = defaultBasketSize := by
    have : b2.branch.data.basketSize = b1.branch.data.basketSize := by
      unfold WBranch.fill at h2
      obtain ⟨l, hl, -⟩ := hfl.tables.leaf
      rw [hl] at h2
      obtain ⟨_, -, h2⟩ := Res.ok_bind.1 h2
      obtain ⟨_, -, h2⟩ := Res.ok_bind.1 h2
      cases h2
      rfl
    rw [this, hfl.tables.data]
    exact h0.size
  have hblen : bk2.wbuf.p.length = cur.flatten.length + (l0.entryOf bs).length := by
    rw [hc2.bytes]; simp
  rw [hsize, hblen] at h3
  split at h3
  · simp only [Fs.ok_panic] at h3
  · next hn0 =>
    dsimp only at hn0
    rw [hn] at hn0
    split at h3
    · next hs =>
      obtain ⟨b4, f4, h4, h3⟩ := Fs.ok_bind.1 h3
      obtain ⟨_, _, h6, h7⟩ := Fs.ok_bind.1 h3
      clear h3
      obtain ⟨rfl, rfl⟩ := Fs.ok_get.1 h6
      obtain ⟨⟨b5, bk5⟩, _, h8, h9⟩ := Fs.ok_bind.1 h7
      clear h7
      obtain ⟨h5, rfl⟩ := Fs.ok_lift.1 h8
      obtain ⟨hx, rfl⟩ := Fs.ok_pure.1 h9
      cases hx
      obtain ⟨hb4, hi4, d, bk', n', m', hd, ht4, hit4, hend, hst⟩ := Current.flush hfl.inv
        (fun hle => ht2 (by
          simp only [List.flatten_append, List.flatten_cons, List.flatten_nil, List.append_nil,
            List.length_append] at hle
          omega))
        (by simp only [List.length_append, List.length_singleton]; omega) hb2 hc2 hfew h4 hb
      obtain ⟨ht5, hl5, hit5, hc5⟩ := Current.new h0 hi4 ht4 h5
      refine ⟨by rw [hit5, hit4, hit2], .inr ⟨_, _, hst, hb4⟩, by rw [hn], .inr ⟨d, hd, hend, ?_, hi4, ?_, .inr ⟨bk5, rfl, hc5, hl5⟩, by simp⟩⟩
      · rw [hd, List.flatten_append, List.flatten_cons, List.flatten_nil, List.append_nil, List.length_append]
        have := asI_le_natCast 4 (l0.entryOf bs).length
        dsimp only at hs
        rw [hn] at hs
        omega
      have e : ((done ++ [d]).map Done.es).flatten.length + ([] : List (List Byte)).length =
          (done.map Done.es).flatten.length + cur.length + 1 := by
        simp only [List.map_append, List.map_cons, List.map_nil, hd, List.flatten_append, List.flatten_cons,
          List.flatten_nil, List.append_nil, List.length_append, List.length_singleton, List.length_nil]
        omega
      rw [e]
      exact ht5
    · next hs =>
      have hle : (l0.entryOf bs).length < 32768 := by
        unfold defaultBasketSize at hs
        omega
      have ht3 := ht2 (by simp only [kStartBigFile]; omega)
      obtain ⟨hx, rfl⟩ := Fs.ok_pure.1 h3
      cases hx
      refine ⟨hit2, .inl rfl, by rw [hn], .inl ⟨rfl, ?_, hfl.inv, ?_, .inr ⟨bk2, hb2, hc2, hfew⟩, ?_⟩⟩
      · dsimp only at hs
        rw [hn, asI_of (by decide) (inI4_le (by omega) (by omega))] at hs
        unfold defaultBasketSize at hs
        omega
      · rw [List.length_append, List.length_singleton, ← Nat.add_assoc]
        exact ht3
      · simp only [List.flatten_append, List.flatten_cons, List.flatten_nil, List.append_nil,
          List.length_append]
        unfold defaultBasketSize at hs
        omega

/-- There is nothing to write. -/
theorem Filling.none (h0 : FreshBranch tab b0 l0) {f f' : FileW} {done : List Done}
    {cur : List (List Byte)} {b b' : WBranch} {m : Option Int} (h : Filling path tn tab b0 l0 f done cur b)
    (hit : b.items = []) (hw : b.write tn f = (.ok (b', m), f')) :
    b'.items = [] ∧ f' = f ∧ m = .none ∧ Filling path tn tab b0 l0 f' done cur b' := by
  unfold WBranch.write at hw
  obtain ⟨⟨b1, bk⟩, _, h1, hw1⟩ := Fs.ok_bind.1 hw
  clear hw
  obtain ⟨rfl, hit1, hb1, hfl, hc, hfew⟩ := h.currentBasket h0 h1
  dsimp only at hw1
  rw [hit1, hit] at hw1
  dsimp only at hw1
  obtain ⟨hx, rfl⟩ := Fs.ok_pure.1 hw1
  cases hx
  exact ⟨hit1.trans hit, rfl, rfl, hfl⟩

theorem WBranch.write_some {b b' : WBranch} {f f' : FileW} {m : Option Int} {item : Wr Nat}
    {rest : List (Option (Wr Nat))} (hit : b.items = some item :: rest)
    (hw : b.write tn f = (.ok (b', m), f')) : m ≠ .none := by
  unfold WBranch.write at hw
  obtain ⟨⟨b1, bk⟩, _, h1, hw1⟩ := Fs.ok_bind.1 hw
  have hit1 : b1.items = b.items := by
    unfold WBranch.currentBasket at h1
    rcases hb : b.basket with _ | x <;> rw [hb] at h1
    · obtain ⟨_, _, h2, h3⟩ := Fs.ok_bind.1 h1
      obtain ⟨⟨b2, bk2⟩, _, h4, h5⟩ := Fs.ok_bind.1 h3
      obtain ⟨h4, -⟩ := Fs.ok_lift.1 h4
      obtain ⟨hx, -⟩ := Fs.ok_pure.1 h5
      cases hx
      unfold WBranch.createNewBasket at h4
      dsimp only at h4
      split at h4
      · cases h4
      · cases h4; rfl
    · obtain ⟨hx, -⟩ := Fs.ok_pure.1 h1
      cases hx; rfl
  dsimp only at hw1
  rw [hit1, hit] at hw1
  dsimp only at hw1
  obtain ⟨⟨b2, bk2, n⟩, _, h2', hw⟩ := Fs.ok_bind.1 hw1
  obtain ⟨b3, f3, h3, hw3⟩ := Fs.ok_bind.1 hw
  obtain ⟨hx, -⟩ := Fs.ok_pure.1 hw3
  cases hx
  simp

end

/-! ### The branch of a column -/

theorem beBytes_ne_nil {k n : Nat} (hk : k ≠ 0) : beBytes k n ≠ [] := by
  intro h
  have := congrArg List.length h
  simp at this
  exact hk this

theorem Ty.prim_ne_nil {t : Ty} {x} (h : t.leafKind = some x) (v : t.Val) : t.enc v ≠ [] := by
  cases t <;> first
    | exact beBytes_ne_nil (by decide)
    | cases h

theorem marshalled_eq {t : Ty} {v : t.Val} (h : t.Ok v) : marshalled t v = t.enc v := by
  unfold marshalled Ty.marshal
  rw [Writes.counted (t.writes_put v h) _ (WBuffer.new_WF 0)]
  simp [WBuffer.new]

theorem Ty.writes_marshal {t : Ty} {v : t.Val} (h : t.Ok v) :
    Writes (t.marshal v) (marshalled t v) (marshalled t v).length := by
  rw [marshalled_eq h]
  exact Writes.counted (t.writes_put v h)

/-- A branch as `new_branch` makes it. -/
theorem WBranch.new_fresh {t : Ty} {name : Str} {items : List (Option (Wr Nat))} {io : Nat} {b : WBranch}
    {sis : List StreamerInfo} (h : WBranch.new t name items io = .ok (b, sis)) :
    b.items = items ∧ b.basket = none ∧ b.branch.name = name ∧
      ∃ l0, FreshBranch t.varies b.branch l0 ∧
        ∀ v, t.Ok v → marshalled t v ≠ [] ∧ l0.entryOf (marshalled t v) = entryBytes t v := by
  unfold WBranch.new at h
  obtain ⟨l, hl, h⟩ := Res.ok_bind.1 h
  dsimp only at h
  cases t with
  | vec e =>
    dsimp only at h
    obtain ⟨c, hc, h⟩ := Res.ok_bind.1 h
    obtain ⟨si, hsi, h⟩ := Res.ok_bind.1 h
    cases h
    obtain ⟨_, -, hl⟩ := Res.ok_bind.1 hl
    cases hl
    refine ⟨rfl, rfl, rfl, _, ⟨?_, rfl, rfl, rfl, rfl, rfl, rfl, rfl, rfl, rfl, rfl, rfl, rfl⟩, fun v hv => ?_⟩
    · exact trivial
    refine ⟨?_, rfl⟩
    rw [marshalled_eq hv]
    exact fun h => beBytes_ne_nil (k := 4) (by decide) (List.append_eq_nil_iff.1 h).1
  | string =>
    dsimp only at h
    cases h
    cases hl
    refine ⟨rfl, rfl, rfl, _, ⟨?_, rfl, rfl, rfl, rfl, rfl, rfl, rfl, rfl, rfl, rfl, rfl, rfl⟩, fun v hv => ?_⟩
    · exact ⟨Int.le_refl 1, show (1 : Int) ≤ kStartBigFile by decide, Int.le_refl 0, by decide⟩
    refine ⟨?_, rfl⟩
    rw [marshalled_eq hv]
    exact encStr_ne_nil _
  | arr n e =>
    dsimp only at h
    cases h
    unfold Leaf.new at hl
    dsimp only at hl
    split at hl
    · cases hl
    · next hn =>
      split at hl
      · cases hl
      · next k u hk =>
        cases hl
        have hkC : k ≠ .C := by cases e <;> simp [Ty.leafKind] at hk <;> rw [← hk.1] <;> decide
        refine ⟨rfl, rfl, rfl, _, ⟨?_, rfl, rfl, rfl, rfl, rfl, rfl, rfl, rfl, rfl, rfl, rfl, rfl⟩, fun v hv => ?_⟩
        · cases k <;> first | exact absurd rfl hkC | exact trivial
        refine ⟨?_, rfl⟩
        rw [marshalled_eq hv]
        obtain ⟨h1, -⟩ := hv
        cases v with
        | nil =>
          exfalso
          apply hn
          rw [← h1]
          rfl
        | cons x xs =>
          intro h
          have h : ((x :: xs).take n).flatMap e.enc = [] := h
          rw [← h1, List.take_length, List.flatMap_cons] at h
          exact Ty.prim_ne_nil hk x (List.append_eq_nil_iff.1 h).1
  | _ =>
    dsimp only at h
    cases h
    cases hl
    refine ⟨rfl, rfl, rfl, _, ⟨?_, rfl, rfl, rfl, rfl, rfl, rfl, rfl, rfl, rfl, rfl, rfl, rfl⟩, fun v hv => ?_⟩
    · exact trivial
    refine ⟨?_, rfl⟩
    rw [marshalled_eq hv]
    exact Ty.prim_ne_nil rfl v

theorem length_le_flatten_of_mem {l : List (List Byte)} {x : List Byte} (h : x ∈ l) :
    x.length ≤ l.flatten.length := by
  induction l with
  | nil => cases h
  | cons y l ih =>
    rw [List.flatten_cons, List.length_append]
    rcases List.mem_cons.1 h with rfl | h
    · omega
    · have := ih h
      omega

/-- How entries of `w` bytes are cut into baskets. -/
def EvenlyCut (w : Nat) (done : List Done) (cur : List (List Byte)) : Prop :=
  (∀ d ∈ done, d.es.length = perBasket w) ∧ cur.length < perBasket w

theorem perBasket_pos (w : Nat) : 0 < perBasket w := by
  unfold perBasket
  omega

theorem perBasket_full {w n : Nat} (h : n < perBasket w) (hf : 32768 ≤ (n + 2) * w) : n + 1 = perBasket w := by
  unfold perBasket at *
  rcases Nat.lt_or_ge (32767 / w) (n + 2) with h1 | h1
  · omega
  · have := Nat.mul_le_of_le_div w (n + 2) 32767 h1
    omega

theorem perBasket_room {w n : Nat} (hw : 0 < w) (hf : (n + 2) * w < 32768) : n + 1 < perBasket w := by
  have := (Nat.le_div_iff_mul_le hw).2 (show (n + 2) * w ≤ 32767 by omega)
  unfold perBasket
  omega

theorem flatten_even {w : Nat} {l : List (List Byte)} (h : ∀ e ∈ l, e.length = w) : l.flatten.length = l.length * w := by
  induction l with
  | nil => simp
  | cons e l ih =>
    rw [List.flatten_cons, List.length_append, h e (by simp), ih fun e he => h e (by simp [he]), List.length_cons,
      Nat.succ_mul]
    omega

/-- What holds while a column is written. -/
structure ColumnState (env : Env) (tn : Str) (c : Column) (n : Nat) (b : WBranch) (f : FileW) (path : Str)
    (b0 : Branch) (l0 : Leaf) (done : List Done) (cur : List (List Byte)) : Prop where
  fresh : FreshBranch c.ty.varies b0 l0
  name : b0.name = c.name
  entry : ∀ v, c.ty.Ok v → marshalled c.ty v ≠ [] ∧ l0.entryOf (marshalled c.ty v) = entryBytes c.ty v
  filling : Filling path tn c.ty.varies b0 l0 f done cur b
  le : n ≤ c.vals.length
  items : b.items = (c.vals.drop n).map fun v => some (c.ty.marshal v)
  taken : (done.map Done.es).flatten ++ cur = (c.vals.take n).map (entryBytes c.ty)
  cut : ∀ w, (∀ v ∈ c.vals, (entryBytes c.ty v).length = w) → EvenlyCut w done cur

theorem ColumnState.start {env : Env} {tn path : Str} {c : Column} {f : FileW} {io : Nat} {b : WBranch}
    {sis : List StreamerInfo} (hi : Inv path f)
    (h : WBranch.new c.ty c.name (c.vals.map fun v => some (c.ty.marshal v)) io = .ok (b, sis)) :
    ∃ l0, ColumnState env tn c 0 b f path b.branch l0 [] [] := by
  obtain ⟨h1, h2, h3, l0, h4, h5⟩ := WBranch.new_fresh h
  exact ⟨l0, h4, h3, h5, ⟨hi, h4.tables, .inl ⟨h2, rfl, rfl⟩, by decide⟩, Nat.zero_le _, h1, rfl,
    fun w _ => ⟨(fun d hd => by cases hd), perBasket_pos w⟩⟩

theorem ColumnState.mono {env : Env} {tn path : Str} {c : Column} {n : Nat} {b : WBranch} {f f' : FileW}
    {b0 : Branch} {l0 : Leaf} {done : List Done} {cur : List (List Byte)}
    (h : ColumnState env tn c n b f path b0 l0 done cur) (hi : Inv path f')
    (ht : ∀ w ∈ f.trace, w ∈ f'.trace) : ColumnState env tn c n b f' path b0 l0 done cur :=
  ⟨h.fresh, h.name, h.entry, h.filling.mono hi ht, h.le, h.items, h.taken, h.cut⟩

/-- A call of `write`. -/
theorem ColumnState.write {env : Env} {tn path : Str} {c : Column} {n : Nat} {b b' : WBranch} {f f' : FileW}
    {b0 : Branch} {l0 : Leaf} {done : List Done} {cur : List (List Byte)} {m : Option Int}
    (hok : ∀ v ∈ c.vals, c.ty.Ok v)
    (h : ColumnState env tn c n b f path b0 l0 done cur) (hw : b.write tn f = (.ok (b', m), f'))
    (hb : ∀ w ∈ f'.trace, w.pos + w.data.length ≤ 2000000000) :
    Stores f f' ∧ ((m = none ∧ n = c.vals.length ∧ ColumnState env tn c n b' f' path b0 l0 done cur) ∨
      (∃ v ∈ c.vals, c.vals[n]? = some v ∧ m = some (asI 4 (entryBytes c.ty v).length) ∧
        ∃ done' cur', ColumnState env tn c (n + 1) b' f' path b0 l0 done' cur' ∧
          ((done' = done ∧ f' = f ∧ cur' = cur ++ [entryBytes c.ty v]) ∨
            ∃ d, done' = done ++ [d] ∧ cur' = [] ∧ d.es = cur ++ [entryBytes c.ty v] ∧
            f'.header.end_ = f.header.end_ + d.bytes ∧
            defaultBasketSize ≤ (d.es.flatten.length : Int) + (entryBytes c.ty v).length))) := by
  rcases Nat.lt_or_ge n c.vals.length with hlt | hge
  · have hd : c.vals.drop n = c.vals[n] :: c.vals.drop (n + 1) := List.drop_eq_getElem_cons hlt
    have hv : c.ty.Ok c.vals[n] := hok _ (List.getElem_mem _)
    have hit := h.items
    rw [hd, List.map_cons] at hit
    obtain ⟨hne, he⟩ := h.entry _ hv
    have htk : (c.vals.take (n + 1)).map (entryBytes c.ty) =
        (c.vals.take n).map (entryBytes c.ty) ++ [entryBytes c.ty c.vals[n]] := by
      rw [List.take_add_one, List.map_append, List.getElem?_eq_getElem hlt]
      rfl
    obtain ⟨h1, h2, hm, h3⟩ := h.filling.write h.fresh hit (Ty.writes_marshal hv) hne hw hb
    rw [he] at hm
    refine ⟨h2, .inr ⟨_, List.getElem_mem hlt, List.getElem?_eq_getElem hlt, hm, ?_⟩⟩
    · rw [he] at h3
      have hcur : ∀ w, (∀ v ∈ c.vals, (entryBytes c.ty v).length = w) → cur.flatten.length = cur.length * w := by
        intro w hw
        refine flatten_even fun e he => ?_
        have : e ∈ (done.map Done.es).flatten ++ cur := List.mem_append_right _ he
        rw [h.taken] at this
        obtain ⟨v, hv, rfl⟩ := List.mem_map.1 this
        exact hw v (List.mem_of_mem_take hv)
      have hpos : 0 < (entryBytes c.ty c.vals[n]).length := by
        rw [← he]
        exact Nat.lt_of_lt_of_le (List.length_pos_iff.2 hne) (l0.entryOf_ge _)
      rcases h3 with ⟨hf, hroom, h3⟩ | ⟨d, hd, hend, hs, h3⟩
      · refine ⟨_, _, ⟨h.fresh, h.name, h.entry, h3, hlt, h1, by
          rw [htk, ← h.taken, List.append_assoc], fun w hw => ⟨(h.cut w hw).1, ?_⟩⟩, .inl ⟨rfl, hf, rfl⟩⟩
        have e1 := hw _ (List.getElem_mem hlt)
        rw [hcur w hw, e1] at hroom
        rw [List.length_append, List.length_singleton]
        refine perBasket_room (by omega) ?_
        rw [Nat.add_mul]
        exact hroom
      · refine ⟨_, _, ⟨h.fresh, h.name, h.entry, h3, hlt, h1, ?_, fun w hw => ⟨?_, perBasket_pos w⟩⟩,
          .inr ⟨d, rfl, rfl, hd, hend, hs⟩⟩
        · rw [htk, ← h.taken]
          simp [hd]
        · have e1 := hw _ (List.getElem_mem hlt)
          intro x hx
          rcases List.mem_append.1 hx with hx | hx
          · exact (h.cut w hw).1 x hx
          · rw [List.mem_singleton.1 hx, hd, List.length_append, List.length_singleton]
            refine perBasket_full (h.cut w hw).2 ?_
            have e2 := hcur w hw
            rw [hd] at hs
            simp only [List.flatten_append, List.flatten_cons, List.flatten_nil, List.append_nil, List.length_append,
              e1, e2] at hs
            unfold defaultBasketSize at hs
            rw [Nat.add_mul]
            omega
  · have hn : n = c.vals.length := Nat.le_antisymm h.le hge
    have hit := h.items
    rw [List.drop_eq_nil_of_le hge] at hit
    obtain ⟨h1, h2, h3, h4⟩ := h.filling.none h.fresh hit hw
    refine ⟨.inl h2, .inl ⟨h3, hn, h.fresh, h.name, h.entry, h4, h.le, ?_, h.taken, h.cut⟩⟩
    rw [List.drop_eq_nil_of_le hge]
    exact h1

/-- Entries have less than 2 GB. -/
theorem ColumnState.entry_le {env : Env} {tn path : Str} {c : Column} {n : Nat} {b : WBranch} {f : FileW}
    {b0 : Branch} {l0 : Leaf} {done : List Done} {cur : List (List Byte)}
    (h : ColumnState env tn c n b f path b0 l0 done cur) {v : c.ty.Val} (hv : v ∈ c.vals.take n) :
    (entryBytes c.ty v).length ≤ 2000000000 := by
  have hm : entryBytes c.ty v ∈ (done.map Done.es).flatten ++ cur := by
    rw [h.taken]; exact List.mem_map.2 ⟨v, hv, rfl⟩
  rcases List.mem_append.1 hm with hm | hm
  · obtain ⟨es, h1, h2⟩ := List.mem_flatten.1 hm
    obtain ⟨d, hd, rfl⟩ := List.mem_map.1 h1
    obtain ⟨i, hi⟩ := List.getElem?_of_mem hd
    have hb := h.filling.tables.stored i d hi
    have h3 := length_le_flatten_of_mem h2
    have h4 : d.es.flatten.length ≤ (basketPayload c.ty.varies (bkl b0.name tn) d.es).length := by
      unfold basketPayload
      simp
    have h5 := hb.lo
    have h6 := hb.hi
    have h7 := hb.bytes
    have h8 := dirPos_ge path
    have h26 : 26 ≤ bkl b0.name tn := (keyLenFor_ge b0.name tn (b! "TBasket") false false).1
    simp only [kStartBigFile] at h6
    omega
  · have h3 := length_le_flatten_of_mem hm
    have := h.filling.small
    omega

/-- A branch that has been flushed for the last time. -/
structure ColumnDone (tn : Str) (c : Column) (b : WBranch) (f : FileW) (path : Str)
    (b0 : Branch) (l0 : Leaf) (done : List Done) : Prop where
  fresh : FreshBranch c.ty.varies b0 l0
  name : b0.name = c.name
  inv : Inv path f
  tables : Tables path tn c.ty.varies f.trace b0 l0 done c.vals.length b.branch
  taken : (done.map Done.es).flatten = c.vals.map (entryBytes c.ty)
  some : done ≠ []

theorem ColumnDone.mono {tn path : Str} {c : Column} {b : WBranch} {f f' : FileW}
    {b0 : Branch} {l0 : Leaf} {done : List Done} (h : ColumnDone tn c b f path b0 l0 done)
    (hi : Inv path f') (ht : ∀ w ∈ f.trace, w ∈ f'.trace) : ColumnDone tn c b f' path b0 l0 done :=
  ⟨h.fresh, h.name, hi, h.tables.mono ht, h.taken, h.some⟩

theorem ColumnState.flush {env : Env} {tn path : Str} {c : Column} {n : Nat} {b b' : WBranch} {f f' : FileW}
    {b0 : Branch} {l0 : Leaf} {done : List Done} {cur : List (List Byte)}
    (h : ColumnState env tn c n b f path b0 l0 done cur) (hw : b.flush f = (.ok b', f'))
    (hb : ∀ w ∈ f'.trace, w.pos + w.data.length ≤ 2000000000) :
    Inv path f' ∧ (∀ w ∈ f.trace, w ∈ f'.trace) ∧ Stores f f' ∧
      ∃ d, Tables path tn c.ty.varies f'.trace b0 l0 (done ++ [d]) n b'.branch ∧ d.es = cur ∧
      f'.header.end_ = f.header.end_ + d.bytes ∧ ((done ++ [d]).map Done.es).flatten = (c.vals.take n).map (entryBytes c.ty) := by
  obtain ⟨hi, ht, hbk, hs⟩ := h.filling
  rcases hbk with ⟨hn, -, -⟩ | ⟨bk, hbk, hc, hfew⟩
  · exfalso
    unfold WBranch.flush at hw
    rw [hn] at hw
    obtain ⟨_, _, h1, -⟩ := Fs.ok_bind.1 hw
    cases (Fs.ok_orPanic.1 h1).1
  · have hn : n = (done.map Done.es).flatten.length + cur.length := by
      have := congrArg List.length h.taken
      simp only [List.length_append, List.length_map, List.length_take] at this
      have := h.le
      omega
    obtain ⟨hb', hi', d, bk', n', m', hd, ht', -, hend, hst⟩ :=
      Current.flush hi (fun _ => ht) rfl hbk hc hfew hw hb
    refine ⟨hi', ?_, .inr ⟨_, _, hst, hb'⟩, d, hn ▸ ht', hd, hend, ?_⟩
    · obtain ⟨-, w, -, -, hf2, -⟩ := basket_inv hi hst hb'
      rw [hf2]
      exact fun w hw => List.mem_append_left _ hw
    · rw [← h.taken]
      simp [hd]

theorem Writing.state {env : Env} {tn : Str} {c : Column} {n : Nat} {b : WBranch} {f : FileW}
    (hok : ∀ v ∈ c.vals, c.ty.Ok v) (h : Writing env tn c n b f) :
    ∃ path b0 l0 done cur, ColumnState env tn c n b f path b0 l0 done cur := by
  induction h with
  | start hs hn =>
    obtain ⟨l0, h⟩ := ColumnState.start (session_inv hs) hn
    exact ⟨_, _, _, _, _, h⟩
  | others hw hr ih =>
    obtain ⟨path, b0, l0, done, cur, h⟩ := ih
    obtain ⟨vs, ht, -⟩ := runs_grows h.filling.inv hr
    exact ⟨_, _, _, _, _, h.mono (runs_inv h.filling.inv hr)
      (fun w hw => by rw [ht]; exact List.mem_append_left _ hw)⟩
  | entry hw hx hb ih =>
    obtain ⟨path, b0, l0, done, cur, h⟩ := ih
    obtain ⟨-, ⟨h1, -⟩ | ⟨_, -, -, -, _, _, h1, -⟩⟩ := h.write hok hx hb.data
    · cases h1
    · exact ⟨_, _, _, _, _, h1⟩
  | exhausted hw hx hb ih =>
    obtain ⟨path, b0, l0, done, cur, h⟩ := ih
    obtain ⟨-, ⟨-, -, h1⟩ | ⟨_, -, -, h1, -⟩⟩ := h.write hok hx hb.data
    · exact ⟨_, _, _, _, _, h1⟩
    · cases h1

end Verif
