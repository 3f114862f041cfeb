import Verif.Spec.LongVectors
import Verif.Props.Containers
import Verif.Lemmas.RootBaskets
import Verif.Lemmas.Cursor
/-
C77: vectors of any number of items come back.
-/
namespace Verif

/-- At least one byte is taken. -/
def Eats {α} (m : Rd α) : Prop :=
  ∀ r a r', r.SkipOk → m r = .ok (a, r') → r.c + 1 ≤ r'.c

theorem Eats.take {n : Nat} (h : 0 < n) : Eats (Rd.take n) := by
  intro r a r' _ he
  unfold Rd.take at he
  split at he
  · cases he
    show r.c + 1 ≤ r.c + n
    omega
  · cases he

theorem Eats.bind {α β} {m : Rd α} {f : α → Rd β} (h0 : Fwd m) (h1 : Eats m) (h2 : ∀ a, Fwd (f a)) : Eats (m >>= f) := by
  intro r b r'' hs he
  obtain ⟨a, r', ha, hb⟩ := Rd.bind_inv he
  have c1 := h1 r a r' hs ha
  obtain ⟨-, -, s1, -⟩ := h0 r a r' hs ha
  obtain ⟨-, c2, -, -⟩ := h2 a r' b r'' s1 hb
  omega

theorem Eats.then {α β} {m : Rd α} {f : α → Rd β} (h0 : Fwd m) (h1 : ∀ a, Eats (f a)) : Eats (m >>= f) := by
  intro r b r'' hs he
  obtain ⟨a, r', ha, hb⟩ := Rd.bind_inv he
  obtain ⟨-, c1, s1, -⟩ := h0 r a r' hs ha
  have c2 := h1 a r' b r'' s1 hb
  omega

theorem Eats.uint {k : Nat} (h : 0 < k) : Eats (Rd.uint k) := Eats.bind (Inside.take k).fwd (Eats.take h) fun _ => .pure _
theorem Eats.sint {k : Nat} (h : 0 < k) : Eats (Rd.sint k) := Eats.bind (Inside.take k).fwd (Eats.take h) fun _ => .pure _

theorem Eats.string : Eats Rd.string := by
  unfold Rd.string
  refine Eats.bind Inside.u8.fwd (Eats.uint (by decide)) fun b => ?_
  fwd

theorem Ty.eats : (t : Ty) → t.takesRoom = true → Eats t.unmarshal
  | .bool, _ => Eats.bind Inside.i8.fwd (Eats.sint (by decide)) fun _ => .pure _
  | .i8, _ => Eats.sint (by decide)
  | .i16, _ => Eats.sint (by decide)
  | .i32, _ => Eats.sint (by decide)
  | .i64, _ => Eats.sint (by decide)
  | .u8, _ => Eats.uint (by decide)
  | .u16, _ => Eats.uint (by decide)
  | .u32, _ => Eats.uint (by decide)
  | .u64, _ => Eats.uint (by decide)
  | .f32, _ => Eats.uint (by decide)
  | .f64, _ => Eats.uint (by decide)
  | .string, _ => Eats.then Fwd.doSkipHeader fun _ => Eats.string
  | .vec t, _ => by
    refine Eats.then Fwd.doSkipHeader fun _ => Eats.bind Inside.i32.fwd (Eats.sint (by decide)) fun n => ?_
    exact Fwd.ite Inside.panic.fwd (Fwd.bind (Fwd.setSkip fun _ h => by cases h) fun _ => Fwd.times t.fwd _)
  | .arr 0 _, h => by cases h
  | .arr (n + 1) t, h => by
    have ht : t.takesRoom = true := by
      unfold Ty.takesRoom at h
      exact (Bool.and_eq_true_iff.1 h).2
    exact Eats.bind t.fwd (t.eats ht) fun _ => Fwd.bind (Fwd.times t.fwd n) fun _ => .pure _

theorem times_room {α} {m : Rd α} (h0 : Fwd m) (h1 : Eats m) {n : Nat} {r r' : RBuffer} {l : List α} (hs : r.SkipOk)
    (hc : r.c ≤ r.p.length) (h : Rd.times n m r = .ok (l, r')) : r.c + n ≤ r.p.length := by
  induction n generalizing r r' l with
  | zero => exact hc
  | succ n ih =>
    obtain ⟨a, r1, ha, hb⟩ := Rd.bind_inv h
    obtain ⟨as, r2, hb, -⟩ := Rd.bind_inv hb
    obtain ⟨p1, -, s1, i1⟩ := h0 r a r1 hs ha
    have c1 := h1 r a r1 hs ha
    have := ih s1 (by rw [p1]; exact i1 hc) hb
    rw [p1] at this
    omega

theorem vectorEntry_eq {t : Ty} {l : List t.Val} (h : 2 + (beBytes 4 l.length ++ l.flatMap (marshalled t)).length < 2 ^ 30) :
    vectorEntry t l = hdrBytes (beBytes 4 l.length ++ l.flatMap (marshalled t)).length 9 ++
      (beBytes 4 l.length ++ l.flatMap (marshalled t)) := by
  unfold vectorEntry hdrBytes kByteCountMask
  dsimp only
  generalize (beBytes 4 l.length ++ l.flatMap (marshalled t)).length = n at h ⊢
  have e : (n + 2) ||| 0x40000000 = 2 ^ 30 + (2 + n) := by
    rw [Nat.or_comm]
    have := (Nat.two_pow_add_eq_or_of_lt (i := 30) (b := n + 2) (by omega) 1).symm
    rw [show 2 ^ 30 * 1 = 0x40000000 from rfl] at this
    omega
  rw [e]
  rfl

theorem vectorEntry_length (t : Ty) (l : List t.Val) :
    (vectorEntry t l).length = 10 + (l.flatMap (marshalled t)).length := by
  unfold vectorEntry
  simp only [List.length_append, beBytes_length]
  omega

theorem read_short {t : Ty} {l : List t.Val} (h : (Ty.vec t).Ok l) (hs : (vectorEntry t l).length < 2 ^ 24 + 4) :
    readWith (do Rd.setSkip (some 6); (Ty.vec t).unmarshal) (vectorEntry t l) = .ok l := by
  rw [vectorEntry_length] at hs
  have hb : (beBytes 4 l.length ++ l.flatMap (marshalled t)).length = 4 + (l.flatMap (marshalled t)).length := by
    rw [List.length_append, beBytes_length]
  rw [vectorEntry_eq (by omega)]
  have he : beBytes 4 l.length ++ l.flatMap (marshalled t) = (Ty.vec t).enc l := by
    rw [flatMap_congr' fun v hv => marshalled_eq (h.2 v hv)]
    rfl
  have := read_vecEntry h (by rw [← he]; omega)
  rw [entryBytes_vec h, ← he] at this
  exact this

theorem read_long {t : Ty} (ht : t.takesRoom = true) {l : List t.Val} (h1 : 2 ^ 24 + 4 ≤ (vectorEntry t l).length)
    (h2 : (vectorEntry t l).length < 2 ^ 30) :
    (readWith (do Rd.setSkip (some 6); (Ty.vec t).unmarshal) (vectorEntry t l)).unwrap = .error .panic := by
  have hlen := vectorEntry_length t l
  generalize hn : (l.flatMap (marshalled t)).length = n at hlen
  have e : vectorEntry t l = beBytes 4 (2 ^ 30 + (2 + (4 + n))) ++ (beBytes 2 9 ++ (beBytes 4 l.length ++ l.flatMap (marshalled t))) := by
    unfold vectorEntry
    dsimp only
    rw [List.length_append, beBytes_length, hn, List.append_assoc]
  generalize hw : (beBytes 2 9 ++ (beBytes 4 l.length ++ l.flatMap (marshalled t)) : List Byte) = rest at e
  cases hx : readWith (do Rd.setSkip (some 6); (Ty.vec t).unmarshal) (vectorEntry t l) with
  | error x => rfl
  | ok x =>
    exfalso
    unfold readWith at hx
    rw [Rd.bind_ok (a := ()) (r' := RBuffer.mk (vectorEntry t l) 0 0 [] (some 6)) rfl] at hx
    split at hx
    · next a r' hrun =>
      have hhead : (beBytes 4 (2 ^ 30 + (2 + (4 + n)))).head? ≠ some 64 := by
        simp only [beBytes, List.head?_cons]
        intro h
        have := congrArg UInt8.toNat (Option.some.inj h)
        rw [UInt8.toNat_ofNat'] at this
        have e64 : UInt8.toNat 64 = 64 := rfl
        rw [e64] at this
        omega
      have hpre : beBytes 4 (2 ^ 30 + (2 + (4 + n))) <+: (RBuffer.mk (vectorEntry t l) 0 0 [] (some 6)).rest :=
        ⟨rest, by rw [RBuffer.rest, List.drop_zero, e]⟩
      have hsk := Rd.doSkipHeader_absent (r := RBuffer.mk (vectorEntry t l) 0 0 [] (some 6)) (s := 6) rfl (Or.inr (by decide))
        hhead (by intro h; have := congrArg List.length h; rw [beBytes_length] at this; cases this) (Nat.zero_le _) hpre
      obtain ⟨u, r1, g1, hrun⟩ := Rd.bind_inv (m := Rd.doSkipHeader) hrun
      rw [hsk] at g1
      cases g1
      obtain ⟨size, r1, g1, hrun⟩ := Rd.bind_inv (m := Rd.i32) hrun
      have g2 := (Reads.i32_ofNat (n := 2 ^ 30 + (2 + (4 + n))) (by omega)).skipped (SkipFree.sint 4) (Nat.zero_le _) hpre
      have g2 := g1.symm.trans g2
      injection g2 with g2
      injection g2 with g2 g3
      subst g2
      rw [if_neg (by omega)] at hrun
      obtain ⟨u, r2, g4, hrun⟩ := Rd.bind_inv (m := Rd.setSkip none) hrun
      cases g4
      rw [g3] at hrun
      have := times_room t.fwd (t.eats ht) (by intro s hs; cases hs) (by
        show 0 + (beBytes 4 _).length ≤ (vectorEntry t l).length
        rw [beBytes_length]; omega) hrun
      have h3 : 0 + (beBytes 4 (2 ^ 30 + (2 + (4 + n)))).length + ((2 ^ 30 + (2 + (4 + n)) : Nat) : Int).toNat ≤
          (vectorEntry t l).length := this
      rw [Int.toNat_natCast, beBytes_length] at h3
      omega
    · cases hx

theorem collect_each {α} {xs : List (Res α)} {as : List α} (h : collect xs = .ok as) : ∀ x ∈ xs, ∃ a, x = .ok a := by
  induction xs generalizing as with
  | nil => intro x hx; cases hx
  | cons y ys ih =>
    obtain ⟨a, ha, h⟩ := Res.ok_bind.1 h
    obtain ⟨l, hl, -⟩ := Res.ok_bind.1 h
    intro x hx
    rcases List.mem_cons.1 hx with rfl | hx
    · exact ⟨a, ha⟩
    · exact ih hl x hx

/-- The entries of a branch of objects that is read to its end can each be read. -/
theorem getBasket_each {α} {r : Reader} {func : Rd α} {b : Branch} {e : BranchElem}
    (hb : b.branches = []) (he : b.elem = some e) {h : Int} (hh : e.header r b.data.named.name = .ok h)
    {parts : List (List (List Byte))} (hk : Keeps r b.data Slot.isObject parts) {vs : List α}
    (hv : b.getBasket r func = .ok vs) :
    ∀ es ∈ parts, ∀ x ∈ es, ∃ z, (readWith (do Rd.setSkip (some h); func) x).unwrap = .ok z := by
  obtain ⟨ss, h1, h2⟩ := hk.table
  intro es hes x hx
  obtain ⟨i, hi⟩ := List.mem_iff_getElem?.1 hes
  have hlt : i < ss.length := by
    rw [h2.1]
    exact (List.getElem?_eq_some_iff.1 hi).1
  obtain ⟨⟨a, b', c, d, hl⟩, bk, n, hrd⟩ := h2.2 i _ _ (List.getElem?_eq_getElem hlt) hi
  have hc : b.chunks r = .ok (ss.map fun s => do
      let (bk, bd) ← s.read r
      bd.chunkElement (e.header r b.data.named.name) s.leaf (s.leaf.sized s.size bk.nevSize)) := by
    unfold Branch.chunks
    rw [he]
    simp only [BranchElem.chunks, h1, hk.outside, embeddedElement, bind, Except.bind, List.nil_append]
    rfl
  unfold Branch.getBasket at hv
  rw [hb] at hv
  dsimp only at hv
  rw [Res.bind_ok hc] at hv
  obtain ⟨zs, hz, -⟩ := Res.ok_bind.1 hv
  obtain ⟨q, hq⟩ := collect_each hz _ (List.mem_map.2 ⟨_, List.mem_map.2 ⟨ss[i], List.getElem_mem hlt, rfl⟩, rfl⟩)
  simp only [hrd, bind, Except.bind, hl, BasketData.chunkElement, hh, slices_bounds] at hq
  exact collect_each (show collect (es.map fun buf => (readWith (do Rd.setSkip (some h); func) buf).unwrap) = .ok q from hq)
    _ (List.mem_map.2 ⟨x, hx, rfl⟩)

/-- C77, what holds: a column of vectors whose entries take less than 16 MB (2^24 bytes without the first four) is
read as the vectors that were stored.  Missing: longer entries, `C77_false`. -/
theorem C77_short_partial {t : Ty} (r : Reader) (b : Branch) (e : BranchElem) (hb : b.branches = []) (he : b.elem = some e)
    (hh : e.header r b.data.named.name = .ok 6) (groups : List (List (List t.Val)))
    (hk : Keeps r b.data Slot.isObject (groups.map fun g => g.map (vectorEntry t)))
    (hok : ∀ g ∈ groups, ∀ l ∈ g, (Ty.vec t).Ok l ∧ (vectorEntry t l).length < 2 ^ 24 + 4) :
    b.getBasket r (Ty.vec t).unmarshal = .ok groups.flatten := by
  obtain ⟨zs, e1, e2⟩ := getBasket_objects (func := (Ty.vec t).unmarshal) (R := fun z l => z = id l) hb he hh hk
    (fun g hg l hl => ⟨l, read_short (hok g hg l hl).1 (hok g hg l hl).2, rfl⟩)
  rw [e1]
  refine congrArg Except.ok (List.ext_getElem? fun i => ?_)
  rcases Nat.lt_or_ge i groups.flatten.length with hi | hi
  · have hz : i < zs.length := by rw [e2.1]; exact hi
    rw [List.getElem?_eq_getElem hi, List.getElem?_eq_getElem hz]
    exact congrArg some (e2.2 i _ _ (List.getElem?_eq_getElem hz) (List.getElem?_eq_getElem hi))
  · rw [List.getElem?_eq_none hi, List.getElem?_eq_none (by rw [e2.1]; exact hi)]

/-- C77 fails: an entry of 2^24 + 4 bytes or more (and below 2^30) cannot be read, whatever its items are, and
iterating over a column that has one aborts. -/
theorem C77_false {t : Ty} (ht : t.takesRoom = true) {l : List t.Val} (h1 : 2 ^ 24 + 4 ≤ (vectorEntry t l).length)
    (h2 : (vectorEntry t l).length < 2 ^ 30) :
    (readWith (do Rd.setSkip (some 6); (Ty.vec t).unmarshal) (vectorEntry t l)).unwrap = .error .panic ∧
    ∀ (r : Reader) (b : Branch) (e : BranchElem), b.branches = [] → b.elem = some e →
      e.header r b.data.named.name = .ok 6 → ∀ parts, Keeps r b.data Slot.isObject parts →
      (∃ es ∈ parts, vectorEntry t l ∈ es) → ∀ vs, b.getBasket r (Ty.vec t).unmarshal ≠ .ok vs := by
  have h := read_long ht h1 h2
  refine ⟨h, fun r b e hb he hh parts hk hm vs hv => ?_⟩
  obtain ⟨es, hes, hx⟩ := hm
  obtain ⟨z, hz⟩ := getBasket_each hb he hh hk hv es hes _ hx
  rw [h] at hz
  cases hz

/-- A basket of these entries, at the beginning of a file. -/
def longBasket (es : List (List Byte)) : RootBasket :=
  let pay : Int := es.flatten.length + (8 + ((bounds 0 es).dropLast.flatMap fun s => bigEndian 4 (s + 57)).length)
  { key := { nBytes := 57 + pay, objLen := pay, keyLen := 57, seekKey := 0, cls := b! "TBasket", name := b! "x", title := b! "t" }
    date := 0, bufSize := 32000, nevSize := 1000, entries := es, table := true, unused := 57 }

theorem longBasket_head (es : List (List Byte)) : (longBasket es).head.length = 57 := by
  unfold RootBasket.head rootKey bigEndian
  simp only [List.length_append, beBytes_length]
  rfl

theorem longBasket_payload (es : List (List Byte)) : ((longBasket es).payload.length : Int) = (longBasket es).key.objLen := by
  unfold RootBasket.payload longBasket
  simp only [if_true, List.length_append, bigEndian, beBytes_length]
  omega

theorem longBasket_in {es : List (List Byte)} (h : (longBasket es).key.objLen < 2 ^ 30) (hn : es.length < 2 ^ 31)
    (dec : Decoders) : (longBasket es).In ⟨dec, (longBasket es).record, []⟩ := by
  have h1 := longBasket_head es
  have h2 := longBasket_payload es
  have h3 : (longBasket es).key.nBytes = 57 + (longBasket es).key.objLen := rfl
  have hrec : (longBasket es).record.length = 57 + (longBasket es).payload.length := by
    unfold RootBasket.record
    rw [List.length_append, h1]
    rfl
  refine ⟨⟨?_, (by decide : 0 < 2 ^ 32), (by decide : InI 2 3 ∧ (3 : Int) ≤ 3), (by decide : InI 4 32000),
    (by decide : InI 4 1000 ∧ (0 : Int) ≤ 1000), ?_, h2.symm, ?_, Int.le_refl 0, ?_, hn,
    fun _ => (by decide : InI 4 57 ∧ InI 4 (57 - 57)), by intro z hz; cases hz⟩, List.prefix_rfl⟩
  · have hk : ∀ n o : Int, 0 ≤ o → o < 2 ^ 30 → n = 57 + o → ({ nBytes := n, objLen := o, keyLen := 57, seekKey := 0, cls := b! "TBasket", name := b! "x", title := b! "t" } : Key).InRange := by
      intro n o h1 h2 h3
      refine ⟨by show 0 ≤ n; omega, inI4_of (by show _ ≤ n; omega) (by show n < _; omega), (by decide : InI 2 4), (by decide : kStartBigFile < 0 → (1000 : Int) ≤ 4),
        inI4_of (by show _ ≤ o; omega) (by show o < _; omega), (by decide : InI 2 57), (by decide : InI 2 1),
        (by decide : InSeek (decide ((1000 : Int) < 4)) 0), (by decide : InSeek (decide ((1000 : Int) < 4)) 0), 
        ⟨(by decide : (b! "TBasket").length < 2 ^ 31), rfl⟩, ⟨(by decide : 1 < 2 ^ 31), rfl⟩, ⟨(by decide : 1 < 2 ^ 31), rfl⟩⟩
    exact hk _ _ (by omega) h h3
  · rw [h1]; rfl
  · rw [hrec, h3]; omega
  · rw [h1]; omega

/-- A branch with it. -/
def longBranch (es : List (List Byte)) : Branch :=
  .mk { named := { name := b! "x" }, entries := es.length, leaves := [.element 1 {} 0 (-1)],
        basketBytes := [(longBasket es).key.nBytes], basketSeek := [0] }
    (some { className := b! "vector<unsigned char>", stype := -1 }) []

theorem longBranch_keeps {es : List (List Byte)} (h : (longBasket es).key.objLen < 2 ^ 30) (hn : es.length < 2 ^ 31)
    (dec : Decoders) : Keeps ⟨dec, (longBasket es).record, []⟩ (longBranch es).data Slot.isObject [es] := by
  have hin := longBasket_in h hn dec
  have hl : Lists ⟨dec, (longBasket es).record, []⟩ (longBranch es).data (.element 1 {} 0 (-1)) [longBasket es] :=
    ⟨rfl, rfl, rfl, fun b hb => by rw [List.mem_singleton.1 hb]; exact hin⟩
  exact ⟨rfl, _, hl.slots, Alike.cons ⟨⟨_, _, _, _, rfl⟩, _, _, hin.read _ _⟩ Alike.nil⟩

/-- A column with one vector of sixteen million bytes: nothing is read. -/
example (dec : Decoders) : ∃ (r : Reader) (b : Branch), (∃ e, b.branches = [] ∧ b.elem = some e ∧ e.header r b.data.named.name = .ok 6) ∧
    Keeps r b.data Slot.isObject [[vectorEntry .u8 (List.replicate (2 ^ 24) (7 : Nat))]] ∧
    ∀ vs, b.getBasket r (Ty.vec .u8).unmarshal ≠ .ok vs := by
  have h : ∀ n : Nat, ((List.replicate n (7 : Nat)).flatMap (marshalled .u8)).length = n := by
    intro n
    induction n with
    | zero => rfl
    | succ n ih =>
      rw [List.replicate_succ, List.flatMap_cons, List.length_append, ih]
      have : (marshalled .u8 (7 : Nat)).length = 1 := rfl
      omega
  have k : ∀ n : Nat, n = 2 ^ 24 → ∃ (r : Reader) (b : Branch), (∃ e, b.branches = [] ∧ b.elem = some e ∧ e.header r b.data.named.name = .ok 6) ∧
      Keeps r b.data Slot.isObject [[vectorEntry .u8 (List.replicate n (7 : Nat))]] ∧
      ∀ vs, b.getBasket r (Ty.vec .u8).unmarshal ≠ .ok vs := by
    intro n hn
    have hlen := vectorEntry_length .u8 (List.replicate n (7 : Nat))
    rw [h] at hlen
    have hobj : ∀ x : List Byte, (longBasket [x]).key.objLen = x.length + 12 := by
      intro x
      show (([x].flatten.length : Int) + (8 + (((bounds 0 [x]).dropLast.flatMap fun s => bigEndian 4 (s + 57)).length : Int))) = _
      have : ((bounds 0 [x]).dropLast.flatMap fun s => bigEndian 4 (s + 57)).length = 4 := rfl
      rw [this]
      simp
    have hk := longBranch_keeps (es := [vectorEntry .u8 (List.replicate n (7 : Nat))]) (by rw [hobj]; omega)
      (by decide : 1 < 2 ^ 31) dec
    exact ⟨_, _, ⟨_, rfl, rfl, rfl⟩, hk, (C77_false (t := .u8) rfl (by omega) (by omega)).2 _ _ _ rfl rfl rfl _ hk
      ⟨_, List.mem_singleton.2 rfl, List.mem_singleton.2 rfl⟩⟩
  exact k _ rfl

/-- Sixteen million bytes. -/
example : Ty.u8.takesRoom = true ∧ 2 ^ 24 + 4 ≤ (vectorEntry .u8 (List.replicate (2 ^ 24) (7 : Nat))).length ∧
    (vectorEntry .u8 (List.replicate (2 ^ 24) (7 : Nat))).length < 2 ^ 30 := by
  have h : ∀ n : Nat, ((List.replicate n (7 : Nat)).flatMap (marshalled .u8)).length = n := by
    intro n
    induction n with
    | zero => rfl
    | succ n ih =>
      rw [List.replicate_succ, List.flatMap_cons, List.length_append, ih]
      have : (marshalled .u8 (7 : Nat)).length = 1 := rfl
      omega
  have k : ∀ n : Nat, n = 2 ^ 24 → 2 ^ 24 + 4 ≤ (vectorEntry .u8 (List.replicate n (7 : Nat))).length ∧
      (vectorEntry .u8 (List.replicate n (7 : Nat))).length < 2 ^ 30 := by
    intro n hn
    have := vectorEntry_length .u8 (List.replicate n (7 : Nat))
    rw [h] at this
    omega
  exact ⟨rfl, k _ rfl⟩

/-- Two short vectors. -/
def demoVectors : List (List Ty.i16.Val) := [[(5 : Int), -6], []]

/-- Their branch. -/
def demoVectorBranch : Branch :=
  .mk (demoBasketBranch (demoVectors.map (vectorEntry .i16)) (.element 1 {} 0 (-1)))
    (some { className := b! "vector<short>", stype := -1 }) []

example : demoVectorBranch.getBasket (demoBasketReader (demoVectors.map (vectorEntry .i16))) (Ty.vec .i16).unmarshal =
    .ok [[(5 : Int), -6], []] :=
  C77_short_partial _ demoVectorBranch _ rfl rfl rfl [demoVectors]
    (demoBasket_keeps (by decide +kernel) ⟨_, _, _, _, rfl⟩) (by
      intro g hg l hl
      rw [List.mem_singleton.1 hg] at hl
      simp only [demoVectors, List.mem_cons, List.not_mem_nil, or_false] at hl
      rcases hl with rfl | rfl <;> exact ⟨⟨by decide, by decide⟩, by decide⟩)

end Verif
