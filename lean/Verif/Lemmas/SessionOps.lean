import Verif.Lemmas.Session
import Verif.Spec.Session
namespace Verif

/-- The usual state of a file being written. -/
structure FileW.Good (f : FileW) : Prop extends f.Regular where
  lo : 0 ≤ f.header.end_
  hi : f.header.end_ ≤ kStartBigFile

theorem FileW.Good.notBig {f : FileW} (h : f.Good) : f.isBig = false := by
  have := h.hi
  simp only [FileW.isBig, FileHeader.isBig, decide_eq_false_iff_not]
  omega

/-- The name an object is stored under. -/
def putName (name : Str) (obj : PutObj) : Str := if name = [] then obj.name else name

/-- The key `put` makes. -/
def putKey (f : FileW) (name : Str) (obj : PutObj) (cycle : Int) (payload : List Byte) : Key :=
  Key.at (putName name obj) obj.title obj.cls cycle (asI 4 payload.length)
    (f.keyLenFor (putName name obj) obj.title obj.cls) f.header.end_ f.dir.seekDir f.isBig payload

/-- The file after a successful `put`. -/
def afterPut (f : FileW) (k : Key) : FileW :=
  { f.ended (f.header.end_ + (k.keyLen + k.objLen)) with
    dir := { f.dir with keys := f.dir.keys ++ [k] }
    trace := f.trace ++ k.twoWrites (k.enc packedNow) }

/-- The streamer records after the class of the object has been announced. -/
inductive Announced (env : Env) (obj : PutObj) (f : FileW) : FileW → Prop
  | core : obj.cls ∈ coreTypes → Announced env obj f f
  | found {si m} : obj.cls ∉ coreTypes → env.lookup obj.cls obj.vers f.ids = .ok (si, m) →
      Announced env obj f { f with ids := m, sinfos := addInfo f.sinfos si }

theorem Announced.same {env : Env} {obj : PutObj} {f f' : FileW} (h : Announced env obj f f') :
    f' = { f with sinfos := f'.sinfos, ids := f'.ids } := by
  cases h <;> rfl

theorem announce_ok {env : Env} {obj : PutObj} {f f' : FileW} {u : Unit}
    (hc : obj.cls ∉ coreTypes)
    (h : (do let si ← Fs.dictionary env obj.cls obj.vers; addStreamerInfo si : Fs Unit) f = (.ok u, f')) :
    Announced env obj f f' := by
  obtain ⟨si, _, h0, h⟩ := Fs.ok_bind.1 h
  obtain ⟨m, h1, rfl⟩ := Fs.dictionary_ok h0
  rw [addStreamerInfo_eq] at h
  injection h with _ h
  subst h
  exact Announced.found hc h1

/-- A successful `put`. -/
theorem put_ok {env : Env} {name : Str} {obj : PutObj} {f f' : FileW} {u : Unit} (hf : f.Good)
    (h : put env name obj f = (.ok u, f')) :
    (47 : Byte) ∉ name ∧ ∃ c f1 m w, lastCycle (putName name obj) obj.cls f.dir.keys 0 = some c ∧
      Announced env obj f f1 ∧
      obj.marshal (WBuffer.new (f.keyLenFor (putName name obj) obj.title obj.cls).toNat) =
        .ok (m, w) ∧
      InI 4 (f.keyLenFor (putName name obj) obj.title obj.cls) ∧
      (putKey f name obj (asI 2 (c + 1)) w.p).Writable ∧
      f' = afterPut f1 (putKey f name obj (asI 2 (c + 1)) w.p) := by
  unfold put at h
  by_cases hs : (47 : Byte) ∈ name
  · simp only [hs, if_true, Fs.ok_fail] at h
  refine ⟨hs, ?_⟩
  simp only [hs, if_false] at h
  rw [Fs.bind_of_ok (show Fs.get f = (.ok f, f) from rfl)] at h
  simp only [show (if name = [] then obj.name else name) = putName name obj from rfl] at h
  cases hc : lastCycle (putName name obj) obj.cls f.dir.keys 0 with
  | none => simp only [hc, Fs.ok_fail] at h
  | some c =>
  simp only [hc] at h
  refine ⟨c, ?_⟩
  -- the streamer record
  have h' : ∃ f1, Announced env obj f f1 ∧ (do
      let key ← Key.newFromObject (putName name obj) obj.title obj.cls obj.marshal
      Key.writeToFile { key with cycle := asI 2 (c + 1) }
      Fs.modify fun f => { f with dir := { f.dir with
        keys := f.dir.keys ++ [{ key with cycle := asI 2 (c + 1) }] } } : Fs Unit) f1 = (.ok u, f') := by
    by_cases hk : obj.cls ∈ coreTypes
    · simp only [hk, not_true_eq_false, if_false] at h
      exact ⟨f, Announced.core hk, h⟩
    · simp only [hk, not_false_eq_true, if_true] at h
      obtain ⟨si, _, h0, h⟩ := Fs.ok_bind.1 h
      obtain ⟨m, h1, rfl⟩ := Fs.dictionary_ok h0
      rw [Fs.bind_of_ok (addStreamerInfo_eq _ _)] at h
      exact ⟨_, Announced.found hk h1, h⟩
  obtain ⟨f1, ha, h⟩ := h'
  have hs1 := ha.same
  obtain ⟨key, f2, h0, h⟩ := Fs.ok_bind.1 h
  obtain ⟨i1, m, w, hm, i2, rfl, rfl⟩ := Key.newFromObject_ok (by rw [hs1]; exact hf.span)
    (by rw [hs1]; exact hf.comp) h0
  obtain ⟨u', f3, h0, h⟩ := Fs.ok_bind.1 h
  have hd : f1.dir = f.dir := by rw [hs1]
  have hh : f1.header = f.header := by rw [hs1]
  have hkl : f1.keyLenFor = f.keyLenFor := by rw [hs1]; rfl
  have hb : f1.isBig = f.isBig := by rw [hs1]; rfl
  have hkey : ({ Key.at (putName name obj) obj.title obj.cls 1 (asI 4 w.p.length)
      (f1.keyLenFor (putName name obj) obj.title obj.cls) f1.header.end_ f1.dir.seekDir f1.isBig w.p
      with cycle := asI 2 (c + 1) } : Key) = putKey f name obj (asI 2 (c + 1)) w.p := by
    rw [hd, hh, hkl, hb]; rfl
  rw [hkey] at h0 h
  have hw := Key.at_written hf.lo hf.hi (by rw [hkl] at i1; exact i1) h0
  obtain ⟨hw, rfl⟩ := hw
  rw [hkl] at hm i1
  refine ⟨f1, m, w, rfl, ha, hm, i1, hw, ?_⟩
  rw [← Fs.ok_modify.1 h, hkl]
  rfl

theorem Fs.i32_err {v : Int} {e : Fault} {f f' : FileW} (h : Fs.i32 v f = (.error e, f')) :
    e = .panic := by
  unfold Fs.i32 at h
  split at h
  · cases h
  · cases h; rfl

theorem Fs.i32_err' {v : Int} {e : Err} {f f' : FileW} : Fs.i32 v f ≠ (.error (.err e), f') :=
  fun h => by cases Fs.i32_err h

theorem compressPayload_eq (src : List Byte) : compressPayload src 1 = .ok src := by
  unfold compressPayload
  rw [if_neg (by decide), if_pos (Or.inl (by decide))]

/-- If making a key for an object fails without a panic, nothing has changed. -/
theorem Key.newFromObject_err {f f' : FileW} {n t c : Str} {obj : Wr Nat} {e : Err}
    (hr : f.OneSpan) (hc : f.header.compression = 1)
    (h : Key.newFromObject n t c obj f = (.error (.err e), f')) : f' = f := by
  unfold Key.newFromObject at h
  rw [Fs.bind_of_ok (show Fs.get f = (.ok f, f) from rfl)] at h
  rcases Fs.err_bind.1 h with h | ⟨_, _, h0, h⟩
  · exact absurd h Fs.i32_err'
  obtain ⟨-, rfl, rfl⟩ := Fs.ok_i32.1 h0
  rcases Fs.err_bind.1 h with h | ⟨_, _, h0, h⟩
  · unfold Fs.marshal at h
    split at h
    · cases h
    · cases h; rfl
  obtain ⟨-, rfl⟩ := Fs.ok_marshal.1 h0
  rcases Fs.err_bind.1 h with h | ⟨_, _, h0, h⟩
  · exact absurd h Fs.i32_err'
  obtain ⟨-, rfl, rfl⟩ := Fs.ok_i32.1 h0
  rcases Fs.err_bind.1 h with h | ⟨_, _, h0, h⟩
  · rw [hc, compressPayload_eq] at h; cases h
  obtain ⟨-, rfl⟩ := Fs.ok_lift.1 h0
  rcases Fs.err_bind.1 h with h | ⟨_, _, h0, h⟩
  · exact absurd h Fs.i32_err'
  obtain ⟨-, rfl, rfl⟩ := Fs.ok_i32.1 h0
  rw [Fs.bind_of_ok (Fs.setEnd_eq hr _)] at h
  cases h

theorem Key.writeToFile_err {n t c : Str} {cy len seek pdir : Int} {big : Bool} {buf : List Byte}
    {a b : Bool} {f f' : FileW} {e : Err} (hs : 0 ≤ seek) (hb : seek ≤ kStartBigFile)
    (hk : InI 4 (Verif.keyLenFor n t c a b)) :
    (Key.at n t c cy len (Verif.keyLenFor n t c a b) seek pdir big buf).writeToFile f ≠
      (.error (.err e), f') := by
  intro h
  by_cases hl : 0 ≤ Verif.keyLenFor n t c a b + len
  · rw [Key.writeToFile_eq (Key.at_writable hl hs hb hk)] at h
    cases h
  · rw [Key.writeToFile_neg (by simp only [Key.at]; omega) rfl] at h
    cases h

/-- A `put` that returns an error leaves everything but the streamer records as it was. -/
theorem put_err {env : Env} {name : Str} {obj : PutObj} {f f' : FileW} {e : Err} (hf : f.Good)
    (h : put env name obj f = (.error (.err e), f')) : f' = f ∨ Announced env obj f f' := by
  unfold put at h
  by_cases hs : (47 : Byte) ∈ name
  · simp only [hs, if_true] at h
    cases h; exact Or.inl rfl
  simp only [hs, if_false] at h
  rw [Fs.bind_of_ok (show Fs.get f = (.ok f, f) from rfl)] at h
  simp only [show (if name = [] then obj.name else name) = putName name obj from rfl] at h
  cases hc : lastCycle (putName name obj) obj.cls f.dir.keys 0 with
  | none => simp only [hc] at h; cases h; exact Or.inl rfl
  | some c =>
  simp only [hc] at h
  have h' : ∃ f1, Announced env obj f f1 ∧ (do
      let key ← Key.newFromObject (putName name obj) obj.title obj.cls obj.marshal
      Key.writeToFile { key with cycle := asI 2 (c + 1) }
      Fs.modify fun f => { f with dir := { f.dir with
        keys := f.dir.keys ++ [{ key with cycle := asI 2 (c + 1) }] } } : Fs Unit) f1 =
          (.error (.err e), f') := by
    by_cases hk : obj.cls ∈ coreTypes
    · simp only [hk, not_true_eq_false, if_false] at h
      exact ⟨f, Announced.core hk, h⟩
    · simp only [hk, not_false_eq_true, if_true] at h
      rcases Fs.err_bind.1 h with h | ⟨_, _, h0, h⟩
      · cases Fs.dictionary_err h
      obtain ⟨m, h1, rfl⟩ := Fs.dictionary_ok h0
      rw [Fs.bind_of_ok (addStreamerInfo_eq _ _)] at h
      exact ⟨_, Announced.found hk h1, h⟩
  obtain ⟨f1, ha, h⟩ := h'
  have hs1 := ha.same
  have r1 : f1.OneSpan := by rw [hs1]; exact hf.span
  have r2 : f1.header.compression = 1 := by rw [hs1]; exact hf.comp
  rcases Fs.err_bind.1 h with h | ⟨_, _, h0, h⟩
  · cases Key.newFromObject_err r1 r2 h
    exact Or.inr ha
  obtain ⟨i1, m, w, hm, i2, rfl, rfl⟩ := Key.newFromObject_ok r1 r2 h0
  rcases Fs.err_bind.1 h with h | ⟨_, _, h0, h⟩
  · exact absurd h (Key.writeToFile_err (by rw [hs1]; exact hf.lo) (by rw [hs1]; exact hf.hi) i1)
  · cases h

/-! ### Baskets -/

/-- The 19 bytes after the key of a basket. -/
def Basket.tail (b : Basket) : List Byte :=
  encI 2 b.rvers ++ (encI 4 b.bufSize ++ (encI 4 b.nevSize ++ (encI 4 b.nevBuf ++
    (encI 4 b.last ++ [0]))))

theorem Basket.tail_length (b : Basket) : b.tail.length = 19 := by
  simp [Basket.tail]

theorem Basket.writes {b : Basket} (h : b.key.Writable) :
    Writes b.marshal (b.key.enc packedNow ++ b.tail)
      (b.key.enc packedNow ++ b.tail).length := by
  apply Writes.counted
  exact Writes.bind h.writes.drop <| Writes.bind (Writes.bytes _) <| Writes.bind (Writes.bytes _) <|
    Writes.bind (Writes.bytes _) <| Writes.bind (Writes.bytes _) <| Writes.bind (Writes.bytes _) <|
    Writes.bytes _

theorem Basket.marshal_neg {b : Basket} (h : b.key.nBytes < 0) (w : WBuffer) :
    b.marshal w = .error .panic := by
  unfold Basket.marshal Wr.counted
  rw [Wr.bind_ok (w' := w) rfl]
  refine Wr.bind_err ?_
  refine Wr.bind_err ?_
  unfold Wr.drop
  have : b.key.marshal w = .error .panic := by
    unfold Key.marshal Wr.counted
    rw [Wr.bind_ok (w' := w) rfl]
    refine Wr.bind_err ?_
    rw [if_pos h]
    rfl
  rw [Wr.bind_err this]

/-- The offset table appended to the data of a basket. -/
def Basket.tableWr (b : Basket) (n : Int) : Wr Unit := do
  Wr.i32 n
  Wr.each Wr.i32 (b.offsets.take b.nevBuf.toNat)
  Wr.i32 0

/-- What the data of a basket becomes before it is stored. -/
inductive Basket.Payload (b : Basket) (w : WBuffer) : WBuffer → Prop
  | plain : b.offsets = [] → Payload b w w
  | table {w'} : b.offsets ≠ [] → 0 ≤ b.nevBuf → b.nevBuf ≤ b.offsets.length → InI 4 (b.nevBuf + 1) →
      b.tableWr (b.nevBuf + 1) w = .ok ((), w') → Payload b w w'

/-- The key of a stored basket. -/
def basketKey (f : FileW) (b : Basket) (payload : List Byte) : Key :=
  Key.at b.key.name b.key.title (b! "TBasket") b.key.cycle (asI 4 payload.length)
    (f.keyLenFor b.key.name b.key.title (b! "TBasket")) f.header.end_ f.dir.seekDir f.isBig payload

/-- The file after a basket has been stored. -/
def afterBasket (f : FileW) (b : Basket) : FileW :=
  { f.ended (f.header.end_ + (b.key.keyLen + b.key.objLen)) with
    trace := f.trace ++ b.key.twoWrites (b.key.enc packedNow ++ b.tail) }

theorem WBasket.writeToFile_ok {b b' : WBasket} {n m : Int} {f f' : FileW} (hf : f.Good)
    (h : b.writeToFile f = (.ok (b', n, m), f')) :
    ∃ w, b.basket.Payload b.wbuf w ∧ InI 4 (b.basket.key.keyLen + asI 4 b.wbuf.p.length) ∧
      InI 4 (f.keyLenFor b.basket.key.name b.basket.key.title (b! "TBasket")) ∧
      (basketKey f b.basket w.p).Writable ∧
      b' = { basket := { b.basket with key := basketKey f b.basket w.p
                                       last := b.basket.key.keyLen + asI 4 b.wbuf.p.length }
             wbuf := { w with p := [], c := 0 } } ∧
      n = b'.basket.key.keyLen + b'.basket.key.objLen ∧ m = b'.basket.key.nBytes ∧
      f' = afterBasket f b'.basket := by
  obtain ⟨⟨key, nevBuf, last0, nevSize, bufSize, offsets, rvers⟩, wbuf⟩ := b
  unfold WBasket.writeToFile at h
  rw [Fs.bind_of_ok (show Fs.get f = (.ok f, f) from rfl)] at h
  simp only [hf.notBig, Bool.and_false, Bool.false_eq_true, if_false] at h
  obtain ⟨last, _, h0, h⟩ := Fs.ok_bind.1 h
  obtain ⟨i0, rfl, rfl⟩ := Fs.ok_i32.1 h0
  obtain ⟨w, f1, h0, h⟩ := Fs.ok_bind.1 h
  have hp : Basket.Payload ⟨key, nevBuf, last0, nevSize, bufSize, offsets, rvers⟩ wbuf w ∧ f1 = f := by
    unfold Basket.appendTable at h0
    by_cases ho : offsets = []
    · subst ho
      simp only [List.isEmpty_nil, if_true] at h0
      obtain ⟨rfl, rfl⟩ := Fs.ok_pure.1 h0
      exact ⟨.plain rfl, rfl⟩
    · have ho' : offsets.isEmpty = false := by
        cases offsets with
        | nil => exact absurd rfl ho
        | cons => rfl
      simp only [ho', Bool.false_eq_true, if_false] at h0
      split at h0
      · simp only [Fs.ok_panic] at h0
      · next hn =>
        obtain ⟨_, _, h1, h2⟩ := Fs.ok_bind.1 h0
        obtain ⟨i1, rfl, rfl⟩ := Fs.ok_i32.1 h1
        obtain ⟨⟨u, w'⟩, _, h3, h4⟩ := Fs.ok_bind.1 h2
        obtain ⟨h5, rfl⟩ := Fs.ok_lift.1 h3
        obtain ⟨rfl, rfl⟩ := Fs.ok_pure.1 h4
        exact ⟨.table ho (by simp only; omega) (by simp only; omega) i1 h5, rfl⟩
  clear h0
  obtain ⟨hp, hf1⟩ := hp
  rw [hf1] at h
  clear hf1 f1
  refine ⟨w, hp, i0, ?_⟩
  obtain ⟨k, f2, h0, h⟩ := Fs.ok_bind.1 h
  obtain ⟨i1, i2, rfl, rfl⟩ := Key.newFromBuffer_ok hf.span hf.comp h0
  obtain ⟨_, _, h0, h⟩ := Fs.ok_bind.1 h
  obtain ⟨i3, rfl, rfl⟩ := Fs.ok_i32.1 h0
  obtain ⟨buf, _, h0, h⟩ := Fs.ok_bind.1 h
  obtain ⟨⟨x, wx, hm, rfl⟩, rfl⟩ := Fs.ok_marshal.1 h0
  refine ⟨i1, ?_⟩
  by_cases hl : 0 ≤ f.keyLenFor key.name key.title (b! "TBasket") + asI 4 w.p.length
  · have hw : (basketKey f ⟨key, nevBuf, last0, nevSize, bufSize, offsets, rvers⟩ w.p).Writable :=
      Key.at_writable hl hf.lo hf.hi i1
    refine ⟨hw, ?_⟩
    have hw2 := Basket.writes (b := ⟨basketKey f ⟨key, nevBuf, last0, nevSize, bufSize, offsets, rvers⟩ w.p,
      nevBuf, key.keyLen + asI 4 wbuf.p.length, nevSize, bufSize, offsets, rvers⟩) hw
    have e := hw2 _ (WBuffer.new_WF (f.keyLenFor key.name key.title (b! "TBasket")).toNat)
    have e' := e.symm.trans hm
    injection e' with e'
    injection e' with _ e'
    subst e'
    obtain ⟨_, _, h0, h⟩ := Fs.ok_bind.1 h
    obtain ⟨-, rfl⟩ := Fs.ok_writeAt.1 h0
    obtain ⟨_, _, h0, h⟩ := Fs.ok_bind.1 h
    obtain ⟨-, rfl⟩ := Fs.ok_writeAt.1 h0
    obtain ⟨hv, hfin⟩ := Fs.ok_pure.1 h
    cases hv
    cases hfin
    refine ⟨rfl, rfl, rfl, ?_⟩
    simp only [afterBasket, FileW.ended, WBuffer.new, Key.twoWrites, List.append_assoc,
      List.singleton_append, WBuffer.app_p, List.nil_append]
    rfl
  · have e := Basket.marshal_neg (b := ⟨basketKey f ⟨key, nevBuf, last0, nevSize, bufSize, offsets, rvers⟩ w.p,
      nevBuf, key.keyLen + asI 4 wbuf.p.length, nevSize, bufSize, offsets, rvers⟩)
      (by simp only [basketKey, Key.at]; omega)
      (WBuffer.new (f.keyLenFor key.name key.title (b! "TBasket")).toNat)
    have e' := e.symm.trans hm
    cases e'

/-- Writing bytes always succeeds. -/
theorem Wr.each_i32_ok (l : List Int) (w : WBuffer) : ∃ w', Wr.each Wr.i32 l w = .ok ((), w') := by
  induction l generalizing w with
  | nil => exact ⟨w, rfl⟩
  | cons x l ih =>
    obtain ⟨w', h⟩ := ih { w with p := w.p ++ encI 4 x, c := w.c + (encI 4 x).length }
    exact ⟨w', h⟩

theorem Basket.tableWr_ok (b : Basket) (n : Int) (w : WBuffer) :
    ∃ w', b.tableWr n w = .ok ((), w') := by
  obtain ⟨w', h⟩ := Wr.each_i32_ok (b.offsets.take b.nevBuf.toNat)
    { w with p := w.p ++ encI 4 n, c := w.c + (encI 4 n).length }
  refine ⟨{ w' with p := w'.p ++ encI 4 0, c := w'.c + (encI 4 0).length }, ?_⟩
  unfold Basket.tableWr
  rw [Wr.bind_ok (w' := { w with p := w.p ++ encI 4 n, c := w.c + (encI 4 n).length }) (a := ()) rfl,
    Wr.bind_ok h]
  rfl

theorem Basket.appendTable_err {b : Basket} {w : WBuffer} {f f' : FileW} {e : Err} :
    b.appendTable w f ≠ (.error (.err e), f') := by
  intro h
  unfold Basket.appendTable at h
  split at h
  · cases h
  · split at h
    · cases h
    · rcases Fs.err_bind.1 h with h | ⟨_, _, h0, h⟩
      · exact Fs.i32_err' h
      obtain ⟨-, rfl, rfl⟩ := Fs.ok_i32.1 h0
      obtain ⟨w', hw⟩ := b.tableWr_ok (b.nevBuf + 1) w
      rcases Fs.err_bind.1 h with h | ⟨_, _, h0, h⟩
      · change (b.tableWr (b.nevBuf + 1) w, f) = _ at h
        rw [hw] at h
        cases h
      · cases h

theorem Fs.writeAt_err {data : List Byte} {pos : Int} {f f' : FileW} {e : Fault} (hp : 0 ≤ pos) :
    Fs.writeAt data pos f ≠ (.error e, f') := by
  intro h
  unfold Fs.writeAt at h
  rw [if_neg (by omega)] at h
  cases h

theorem Basket.appendTable_same {b : Basket} {w w' : WBuffer} {f f' : FileW}
    (h : b.appendTable w f = (.ok w', f')) : f' = f := by
  unfold Basket.appendTable at h
  split at h
  · exact (Fs.ok_pure.1 h).2.symm
  · split at h
    · cases h
    · obtain ⟨_, _, h3, h4⟩ := Fs.ok_bind.1 h
      obtain ⟨-, rfl, rfl⟩ := Fs.ok_i32.1 h3
      obtain ⟨_, _, h5, h6⟩ := Fs.ok_bind.1 h4
      obtain ⟨-, rfl⟩ := Fs.ok_lift.1 h5
      exact (Fs.ok_pure.1 h6).2.symm

theorem Key.newFromBuffer_err {f f' : FileW} {n t c : Str} {cy : Int} {buf : List Byte} {e : Err}
    (hr : f.OneSpan) (hc : f.header.compression = 1) :
    Key.newFromBuffer n t c cy buf f ≠ (.error (.err e), f') := by
  intro h
  unfold Key.newFromBuffer at h
  rw [Fs.bind_of_ok (show Fs.get f = (.ok f, f) from rfl)] at h
  rcases Fs.err_bind.1 h with h | ⟨_, _, h0, h⟩
  · exact Fs.i32_err' h
  obtain ⟨-, rfl, rfl⟩ := Fs.ok_i32.1 h0
  rcases Fs.err_bind.1 h with h | ⟨_, _, h0, h⟩
  · exact Fs.i32_err' h
  obtain ⟨-, rfl, rfl⟩ := Fs.ok_i32.1 h0
  rcases Fs.err_bind.1 h with h | ⟨_, _, h0, h⟩
  · rw [hc, compressPayload_eq] at h; cases h
  obtain ⟨-, rfl⟩ := Fs.ok_lift.1 h0
  rcases Fs.err_bind.1 h with h | ⟨_, _, h0, h⟩
  · exact Fs.i32_err' h
  obtain ⟨-, rfl, rfl⟩ := Fs.ok_i32.1 h0
  rw [Fs.bind_of_ok (Fs.setEnd_eq hr _)] at h
  cases h

/-- Storing a basket succeeds or panics. -/
theorem WBasket.writeToFile_err {b : WBasket} {f f' : FileW} {e : Err} (hf : f.Good) :
    b.writeToFile f ≠ (.error (.err e), f') := by
  intro h
  unfold WBasket.writeToFile at h
  rw [Fs.bind_of_ok (show Fs.get f = (.ok f, f) from rfl)] at h
  rcases Fs.err_bind.1 h with h | ⟨_, _, h0, h⟩
  · exact Fs.i32_err' h
  obtain ⟨-, rfl, rfl⟩ := Fs.ok_i32.1 h0
  rcases Fs.err_bind.1 h with h | ⟨w, f1, h1, h2⟩
  · exact Basket.appendTable_err h
  have hf1 : f1 = f := Basket.appendTable_same h1
  rw [hf1] at h2
  rcases Fs.err_bind.1 h2 with h | ⟨k, f2, h3, h4⟩
  · exact Key.newFromBuffer_err hf.span hf.comp h
  obtain ⟨i1, i2, rfl, rfl⟩ := Key.newFromBuffer_ok hf.span hf.comp h3
  rcases Fs.err_bind.1 h4 with h | ⟨_, f3, h5, h6⟩
  · exact Fs.i32_err' h
  obtain ⟨-, rfl, rfl⟩ := Fs.ok_i32.1 h5
  rcases Fs.err_bind.1 h6 with h | ⟨_, f3, h7, h8⟩
  · unfold Fs.marshal at h
    split at h
    · cases h
    · next e' hm =>
      cases h
      by_cases hl : 0 ≤ f.keyLenFor b.basket.key.name b.basket.key.title (b! "TBasket") + asI 4 w.p.length
      · rw [Basket.writes (Key.at_writable hl hf.lo hf.hi i1) _ (WBuffer.new_WF _)] at hm
        cases hm
      · rw [Basket.marshal_neg (by simp only [Key.at]; omega)] at hm
        cases hm
  obtain ⟨-, rfl⟩ := Fs.ok_marshal.1 h7
  rcases Fs.err_bind.1 h8 with h | ⟨_, f3, h9, h10⟩
  · exact Fs.writeAt_err hf.lo h
  obtain ⟨-, rfl⟩ := Fs.ok_writeAt.1 h9
  rcases Fs.err_bind.1 h10 with h | ⟨_, f3, h11, h12⟩
  · have hk := (keyLenFor_ge b.basket.key.name b.basket.key.title (b! "TBasket") f.dir.isBig f.isBig).1
    exact Fs.writeAt_err (Int.add_nonneg hf.lo (Int.le_trans (by decide) hk)) h
  · cases h12

end Verif
