import Verif.Lemmas.Close
namespace Verif

/-! ### Writes placed one after the other -/

/-- The writes follow each other without overlap between `lo` and `hi`. -/
def Placed : Int → List DiskWrite → Int → Prop
  | lo, [], hi => lo ≤ hi
  | lo, w :: ws, hi => lo ≤ w.pos ∧ Placed (w.pos + w.data.length) ws hi

theorem Placed.le {lo hi : Int} {ws : List DiskWrite} (h : Placed lo ws hi) : lo ≤ hi := by
  induction ws generalizing lo with
  | nil => exact h
  | cons w ws ih => have := ih h.2; have := h.1; omega

theorem Placed.append {lo mid hi : Int} {ws vs : List DiskWrite} (h : Placed lo ws mid)
    (h' : Placed mid vs hi) : Placed lo (ws ++ vs) hi := by
  induction ws generalizing lo with
  | nil =>
    cases vs with
    | nil => exact Int.le_trans h h'
    | cons v vs => exact ⟨Int.le_trans h h'.1, h'.2⟩
  | cons w ws ih => exact ⟨h.1, ih h.2⟩

theorem Placed.mem {lo hi : Int} {ws : List DiskWrite} (h : Placed lo ws hi) {w : DiskWrite}
    (hw : w ∈ ws) : lo ≤ w.pos ∧ (w.pos : Int) + w.data.length ≤ hi := by
  induction ws generalizing lo with
  | nil => cases hw
  | cons v ws ih =>
    rcases List.mem_cons.1 hw with rfl | hw
    · exact ⟨h.1, h.2.le⟩
    · have := ih h.2 hw
      have := h.1
      omega

theorem Placed.pairwise {lo hi : Int} {ws : List DiskWrite} (h : Placed lo ws hi) :
    ws.Pairwise fun a b => a.pos + a.data.length ≤ b.pos := by
  induction ws generalizing lo with
  | nil => exact .nil
  | cons w ws ih =>
    refine .cons (fun b hb => ?_) (ih h.2)
    have := (h.2.mem hb).1
    omega

theorem Placed.mono {lo hi hi' : Int} {ws : List DiskWrite} (h : Placed lo ws hi) (hh : hi ≤ hi') :
    Placed lo ws hi' := by
  induction ws generalizing lo with
  | nil => exact Int.le_trans h hh
  | cons w ws ih => exact ⟨h.1, ih h.2⟩

/-- Key length for a file below the limit. -/
abbrev kl (n t c : Str) : Int := keyLenFor n t c false false

/-- Bytes of the key that are not written by the key itself. -/
def extra (c : Str) : Int := if c = b! "TBasket" then 19 else 0

theorem Key.at_enc_length (n t c : Str) (cy len seek pdir : Int) (buf : List Byte) :
    (((Key.at n t c cy len (kl n t c) seek pdir false buf).enc packedNow).length : Int) =
      kl n t c - extra c := by
  rw [Key.enc_length]
  simp only [Key.at, kl, keyLenFor, extra, Bool.false_eq_true, if_false, Bool.or_self, rversKey]
  have h4 : ¬ (1000 : Int) < 4 := by decide
  rw [if_neg h4]
  split <;> omega

/-- A record made of a key and its data. -/
theorem Key.placed {n t c : Str} {cy len seek pdir : Int} {buf rec : List Byte} (hs : 0 ≤ seek)
    (hr : (rec.length : Int) ≤ kl n t c) :
    Placed seek ((Key.at n t c cy len (kl n t c) seek pdir false buf).twoWrites rec)
      (seek + (kl n t c + buf.length)) := by
  have := (keyLenFor_ge n t c false false).1
  simp only [Key.twoWrites, Key.at, Placed]
  omega

theorem extra_nonneg (c : Str) : 0 ≤ extra c := by unfold extra; split <;> omega

theorem Key.placed_enc {n t c : Str} {cy len seek pdir : Int} {buf : List Byte} (hs : 0 ≤ seek) :
    let k := Key.at n t c cy len (kl n t c) seek pdir false buf
    Placed seek (k.twoWrites (k.enc packedNow)) (seek + (kl n t c + buf.length)) := by
  refine Key.placed hs ?_
  rw [Key.at_enc_length]
  have := extra_nonneg c
  omega

/-! ### Invariant of a session -/

/-- A key of the directory. -/
structure KeyOk (path : Str) (f : FileW) (k : Key) : Prop where
  form : k = Key.at k.name k.title k.cls k.cycle k.buffer.length (kl k.name k.title k.cls) k.seekKey
    100 false k.buffer
  len : InI 4 (kl k.name k.title k.cls)
  cycle : InI 2 k.cycle
  lo : dirPos path + 60 ≤ k.seekKey
  hi : k.seekKey + (kl k.name k.title k.cls + k.buffer.length) ≤ f.header.end_
  written : ∀ w ∈ k.twoWrites (k.enc packedNow), w ∈ f.trace

structure Inv (path : Str) (f : FileW) : Prop where
  good : f.Good
  hdr : f.header = { createdHeader path with end_ := f.header.end_ }
  dir : f.dir = { createdDir path with keys := f.dir.keys }
  id : f.id = path
  keys : ∀ k ∈ f.dir.keys, KeyOk path f k
  order : f.dir.keys.Pairwise fun a b => a.seekKey + a.nBytes ≤ b.seekKey
  trace : ∃ ws, f.trace = createdTrace path ++ ws ∧ Placed (dirPos path + 60) ws f.header.end_

theorem dirPos_ge (path : Str) : 128 ≤ dirPos path := by
  have h1 := (keyLenFor_ge path [] (b! "TFile") false false).1
  have h2 := tstringSizeof_pos path
  have : tstringSizeof [] = 1 := rfl
  unfold dirPos dirNameLen dirKeyLen
  omega

theorem Inv.lo {path : Str} {f : FileW} (h : Inv path f) : dirPos path + 60 ≤ f.header.end_ := by
  obtain ⟨ws, -, hp⟩ := h.trace
  exact hp.le

theorem Inv.created {path : Str} {ids : Nat} (hlim : dirPos path + 60 ≤ kStartBigFile) :
    Inv path (createdFile path ids) :=
  ⟨createdFile_good hlim, rfl, rfl, rfl, (fun k hk => by cases hk), List.Pairwise.nil,
    [], (List.append_nil _).symm, Int.le_refl _⟩

theorem Inv.sameBut {path : Str} {f f' : FileW} (h : Inv path f)
    (hs : f' = { f with sinfos := f'.sinfos, ids := f'.ids }) : Inv path f' := by
  rw [hs]
  exact ⟨⟨⟨h.good.span, h.good.comp, h.good.dirv⟩, h.good.lo, h.good.hi⟩, h.hdr, h.dir, h.id,
    fun k hk => ⟨(h.keys k hk).form, (h.keys k hk).len, (h.keys k hk).cycle, (h.keys k hk).lo,
      (h.keys k hk).hi, (h.keys k hk).written⟩, h.order, h.trace⟩

theorem KeyOk.nBytes {path : Str} {f : FileW} {k : Key} (h : KeyOk path f k) :
    k.nBytes = kl k.name k.title k.cls + k.buffer.length := by
  have := congrArg Key.nBytes h.form
  exact this

theorem asI_inI {k : Nat} (hk : 0 < k) (v : Int) : InI k (asI k v) :=
  toSigned_inI hk (wrapI_lt k v)

/-- Adding a record at the end. -/
theorem Inv.grow {path : Str} {f : FileW} (h : Inv path f) {e : Int} {ws : List DiskWrite}
    (he : e ≤ kStartBigFile) (hp : Placed f.header.end_ ws e) {ks : List Key}
    (hk : ∀ k ∈ ks, KeyOk path { f.ended e with trace := f.trace ++ ws } k)
    (ho : ∀ k ∈ ks, f.header.end_ ≤ k.seekKey) (ho' : ks.Pairwise fun a b => a.seekKey + a.nBytes ≤ b.seekKey) :
    Inv path { f.ended e with dir := { f.dir with keys := f.dir.keys ++ ks }
                              trace := f.trace ++ ws } := by
  have hle := hp.le
  refine ⟨⟨⟨rfl, h.good.comp, h.good.dirv⟩, ?_, he⟩, ?_, ?_, h.id, ?_, ?_, ?_⟩
  · have := h.good.lo; show 0 ≤ e; omega
  · show ({ f.header with end_ := e } : FileHeader) = _
    rw [h.hdr]; rfl
  · show ({ f.dir with keys := f.dir.keys ++ ks } : Dir) = _
    rw [h.dir]
  · intro k hk'
    rcases List.mem_append.1 hk' with h1 | h1
    · have := h.keys k h1
      refine ⟨this.form, this.len, this.cycle, this.lo, ?_, fun w hw => ?_⟩
      · have h2 := this.hi
        show _ ≤ e
        omega
      · exact List.mem_append_left _ (this.written w hw)
    · have := hk k h1
      exact ⟨this.form, this.len, this.cycle, this.lo, this.hi, this.written⟩
  · show (f.dir.keys ++ ks).Pairwise _
    rw [List.pairwise_append]
    refine ⟨h.order, ho', fun a ha b hb => ?_⟩
    have h1 := (h.keys a ha).hi
    rw [(h.keys a ha).nBytes]
    have := ho b hb
    omega
  · obtain ⟨vs, h1, h2⟩ := h.trace
    exact ⟨vs ++ ws, by show f.trace ++ ws = _; rw [h1, List.append_assoc], h2.append hp⟩

theorem Inv.seekDir {path : Str} {f : FileW} (h : Inv path f) : f.dir.seekDir = 100 := by
  rw [h.dir]; rfl

theorem Inv.keyLenFor {path : Str} {f : FileW} (h : Inv path f) (n t c : Str) :
    f.keyLenFor n t c = kl n t c := keyLenFor_notBig h.good.dirBig h.good.notBig n t c

/-- The key made by a successful `put`. -/
theorem put_inv {env : Env} {path name : Str} {obj : PutObj} {f f' : FileW} {u : Unit}
    (hi : Inv path f) (h : put env name obj f = (.ok u, f')) (hb : f'.Below2GB) :
    Inv path f' ∧ ∃ c m w k, lastCycle (putName name obj) obj.cls f.dir.keys 0 = some c ∧
      obj.marshal (WBuffer.new (kl (putName name obj) obj.title obj.cls).toNat) = .ok (m, w) ∧
      k = Key.at (putName name obj) obj.title obj.cls (asI 2 (c + 1))
        w.p.length (kl (putName name obj) obj.title obj.cls) f.header.end_ 100 false w.p ∧
      f'.dir.keys = f.dir.keys ++ [k] ∧ f'.trace = f.trace ++ k.twoWrites (k.enc packedNow) ∧
      Placed f.header.end_ (k.twoWrites (k.enc packedNow)) f'.header.end_ := by
  obtain ⟨-, c, f1, m, w, hc, ha, hm, il, hw, rfl⟩ := put_ok hi.good h
  rw [hi.keyLenFor] at hm il
  have hi1 := hi.sameBut ha.same
  have hs := ha.same
  have hd : f1.dir = f.dir := by rw [hs]
  have hh : f1.header = f.header := by rw [hs]
  -- the payload is short
  have hmem : (⟨(f.header.end_ + kl (putName name obj) obj.title obj.cls).toNat, w.p⟩ : DiskWrite) ∈
      (afterPut f1 (putKey f name obj (asI 2 (c + 1)) w.p)).trace := by
    refine List.mem_append_right _ (List.mem_cons_of_mem _ (List.mem_singleton.2 ?_))
    rw [← hi.keyLenFor]
    rfl
  have hlen : (w.p.length : Int) ≤ kStartBigFile := by
    have := hb.data _ hmem
    simp only [kStartBigFile] at *
    omega
  have hkey : putKey f name obj (asI 2 (c + 1)) w.p =
      Key.at (putName name obj) obj.title obj.cls (asI 2 (c + 1))
        w.p.length (kl (putName name obj) obj.title obj.cls) f.header.end_ 100 false w.p := by
    unfold putKey
    rw [hi.keyLenFor, hi.seekDir, hi.good.notBig, asI4_nat hlen]
  rw [hkey] at hb hw ⊢
  have hlo := hi.good.lo
  have hp := Key.placed_enc (n := putName name obj) (t := obj.title) (c := obj.cls)
    (cy := asI 2 (c + 1)) (len := w.p.length) (pdir := 100) (buf := w.p) hlo
  have hend : f.header.end_ + (kl (putName name obj) obj.title obj.cls + w.p.length) ≤ kStartBigFile := by
    have := hb.end_
    rw [← hh]
    exact this
  have ht : f1.trace = f.trace := by rw [hs]
  refine ⟨?_, c, m, w, _, hc, hm, rfl, by simp [afterPut, hd], by simp [afterPut, ht],
    by simp only [afterPut, FileW.ended, hh]; exact hp⟩
  refine hi1.grow (ks := [_]) (by rw [hh]; exact hend) (by rw [hh]; exact hp) ?_ ?_ ?_
  · intro k hk
    rw [List.mem_singleton] at hk
    subst hk
    refine ⟨rfl, il, asI_inI (by decide) _, ?_, ?_, fun v hv => List.mem_append_right _ hv⟩
    · exact hi.lo
    · show f.header.end_ + _ ≤ f1.header.end_ + _
      rw [hh]
      exact Int.le_refl _
  · intro k hk
    rw [List.mem_singleton] at hk
    subst hk
    rw [hh]
    exact Int.le_refl _
  · exact List.pairwise_singleton _ _


/-- The table of offsets stored behind the data of a basket. -/
def Basket.tableBytes (b : Basket) : List Byte :=
  if b.offsets = [] then [] else
    encI 4 (b.nevBuf + 1) ++ ((b.offsets.take b.nevBuf.toNat).flatMap (encI 4) ++ encI 4 0)

theorem Basket.Payload.bytes {b : Basket} {w w' : WBuffer} (h : b.Payload w w')
    (hw : w.WF) : w'.p = w.p ++ b.tableBytes := by
  cases h with
  | plain h => simp [Basket.tableBytes, h]
  | table h _ _ _ ht =>
    have : Writes (b.tableWr (b.nevBuf + 1)) (encI 4 (b.nevBuf + 1) ++
        ((b.offsets.take b.nevBuf.toNat).flatMap (encI 4) ++ encI 4 0)) () := by
      unfold Basket.tableWr
      exact Writes.bind (Writes.bytes _) (Writes.bind (Writes.each fun _ _ => Writes.bytes _)
        (Writes.bytes _))
    rw [this w hw] at ht
    cases ht
    simp [Basket.tableBytes, h]

/-- A basket stored by the session. -/
theorem basket_inv {path : Str} {b b' : WBasket} {n m : Int} {f f' : FileW} (hi : Inv path f)
    (h : b.writeToFile f = (.ok (b', n, m), f')) (hb : f'.Below2GB) :
    Inv path f' ∧ ∃ w, b.basket.Payload b.wbuf w ∧
      b'.basket.key = Key.at b.basket.key.name b.basket.key.title (b! "TBasket") b.basket.key.cycle
        w.p.length (kl b.basket.key.name b.basket.key.title (b! "TBasket")) f.header.end_ 100 false w.p ∧
      f' = afterBasket f b'.basket ∧
      b' = { basket := { b.basket with key := b'.basket.key
                                       last := b.basket.key.keyLen + asI 4 b.wbuf.p.length }
             wbuf := { w with p := [], c := 0 } } ∧
      n = b'.basket.key.keyLen + b'.basket.key.objLen ∧ m = b'.basket.key.nBytes ∧
      Placed f.header.end_ (b'.basket.key.twoWrites (b'.basket.key.enc packedNow ++ b'.basket.tail))
        f'.header.end_ := by
  obtain ⟨w, hw, i1, i2, hwr, hb', hn, hm, hf'⟩ := WBasket.writeToFile_ok hi.good h
  have hk : b'.basket.key = basketKey f b.basket w.p := by rw [hb']
  have hmem : (⟨(f.header.end_ + kl b.basket.key.name b.basket.key.title (b! "TBasket")).toNat, w.p⟩ :
      DiskWrite) ∈ f'.trace := by
    rw [hf']
    unfold afterBasket
    refine List.mem_append_right _ (List.mem_cons_of_mem _ (List.mem_singleton.2 ?_))
    rw [hk, ← hi.keyLenFor]
    rfl
  have hlen : (w.p.length : Int) ≤ kStartBigFile := by
    have := hb.data _ hmem
    simp only [kStartBigFile] at *
    omega
  have hkey : b'.basket.key = Key.at b.basket.key.name b.basket.key.title (b! "TBasket")
      b.basket.key.cycle w.p.length (kl b.basket.key.name b.basket.key.title (b! "TBasket"))
      f.header.end_ 100 false w.p := by
    rw [hk]
    unfold basketKey
    rw [hi.keyLenFor, hi.seekDir, hi.good.notBig, asI4_nat hlen]
  have hf2 := hf'
  have hend := hb.end_
  rw [hf'] at hend
  unfold afterBasket at hend hf'
  rw [hkey] at hend hf'
  have hp : Placed f.header.end_ ((Key.at b.basket.key.name b.basket.key.title (b! "TBasket")
      b.basket.key.cycle w.p.length (kl b.basket.key.name b.basket.key.title (b! "TBasket"))
      f.header.end_ 100 false w.p).twoWrites ((Key.at b.basket.key.name b.basket.key.title (b! "TBasket")
      b.basket.key.cycle w.p.length (kl b.basket.key.name b.basket.key.title (b! "TBasket"))
      f.header.end_ 100 false w.p).enc packedNow ++ b'.basket.tail))
      (f.header.end_ + (kl b.basket.key.name b.basket.key.title (b! "TBasket") + w.p.length)) := by
    refine Key.placed hi.good.lo ?_
    rw [List.length_append, Basket.tail_length, Int.natCast_add, Key.at_enc_length]
    unfold extra
    rw [if_pos rfl]
    omega
  have := hi.grow (ks := []) hend hp (by intro k hk; cases hk) (by intro k hk; cases hk)
    List.Pairwise.nil
  refine ⟨?_, w, hw, hkey, hf2, by rw [hk]; exact hb', hn, hm, ?_⟩
  · rw [hf']
    rw [List.append_nil] at this
    exact this
  · rw [hkey, hf']
    exact hp

/-- The invariant holds throughout a session. -/
theorem step_inv {env : Env} {path : Str} {op : Op} {r : Res Unit} {f f' : FileW} (hi : Inv path f)
    (h : op.run env f = (r, f')) (hr : r ≠ .error .panic) (hb : f'.Below2GB) : Inv path f' := by
  cases op with
  | put name obj =>
    rcases r with (e | e) | u
    · rcases put_err hi.good h with rfl | ha
      · exact hi
      · exact hi.sameBut ha.same
    · exact absurd rfl hr
    · exact (put_inv hi h hb).1
  | basket b =>
    simp only [Op.run] at h
    generalize hw : b.writeToFile f = x at h
    obtain ⟨(e | e) | ⟨b', n, m⟩, f1⟩ := x
    · exact absurd hw (WBasket.writeToFile_err hi.good)
    · cases h; exact absurd rfl hr
    · cases h; exact (basket_inv hi hw hb).1
  | register si =>
    simp only [Op.run] at h
    rw [registerInfo_eq] at h
    cases h
    exact hi.sameBut rfl

theorem runs_inv {env : Env} {path : Str} {ops : List Op} {f g : FileW} (hi : Inv path f)
    (h : Runs env f ops g) : Inv path g := by
  induction h with
  | nil => exact hi
  | snoc h1 h2 h3 h4 ih => exact step_inv ih h2 h3 h4

theorem session_inv {env : Env} {path : Str} {ops : List Op} {f : FileW}
    (h : Session env path ops f) : Inv path f := by
  obtain ⟨ids, f0, h0, hb, h1⟩ := h
  obtain ⟨rfl, hlim⟩ := create_ok h0 hb.end_
  exact runs_inv (Inv.created hlim) h1

/-- Nothing written is taken back and the end does not move down. -/
theorem step_grows {env : Env} {path : Str} {op : Op} {r : Res Unit} {f f' : FileW} (hi : Inv path f)
    (h : op.run env f = (r, f')) (hr : r ≠ .error .panic) (hb : f'.Below2GB) :
    f.header.end_ ≤ f'.header.end_ ∧ ∃ vs, f'.trace = f.trace ++ vs ∧
      Placed f.header.end_ vs f'.header.end_ := by
  have sb : f' = { f with sinfos := f'.sinfos, ids := f'.ids } →
      f.header.end_ ≤ f'.header.end_ ∧ ∃ vs, f'.trace = f.trace ++ vs ∧
      Placed f.header.end_ vs f'.header.end_ := by
    intro e
    have h1 : f'.header = f.header := by rw [e]
    have h2 : f'.trace = f.trace := by rw [e]
    rw [h1, h2]
    exact ⟨Int.le_refl _, [], (List.append_nil _).symm, Int.le_refl _⟩
  cases op with
  | put name obj =>
    rcases r with (e | e) | u
    · rcases put_err hi.good h with rfl | ha
      · exact sb rfl
      · exact sb ha.same
    · exact absurd rfl hr
    · obtain ⟨-, c, m, w, k, -, -, -, -, ht, hp⟩ := put_inv hi h hb
      exact ⟨hp.le, _, ht, hp⟩
  | basket b =>
    simp only [Op.run] at h
    generalize hw : b.writeToFile f = x at h
    obtain ⟨(e | e) | ⟨b', n, m⟩, f1⟩ := x
    · exact absurd hw (WBasket.writeToFile_err hi.good)
    · cases h; exact absurd rfl hr
    · cases h
      obtain ⟨-, w, -, -, ht, -, -, -, hp⟩ := basket_inv hi hw hb
      exact ⟨hp.le, _, by rw [ht]; rfl, hp⟩
  | register si =>
    simp only [Op.run] at h
    rw [registerInfo_eq] at h
    cases h
    exact sb rfl

theorem runs_grows {env : Env} {path : Str} {ops : List Op} {f g : FileW} (hi : Inv path f)
    (h : Runs env f ops g) : ∃ vs, g.trace = f.trace ++ vs ∧
      Placed f.header.end_ vs g.header.end_ := by
  induction h with
  | nil => exact ⟨[], (List.append_nil _).symm, Int.le_refl _⟩
  | snoc h1 h2 h3 h4 ih =>
    obtain ⟨vs, t, p⟩ := ih
    obtain ⟨-, us, t', p'⟩ := step_grows (runs_inv hi h1) h2 h3 h4
    exact ⟨vs ++ us, by rw [t', t, List.append_assoc], p.append p'⟩

theorem runs_trans {env : Env} {ops more : List Op} {f g h : FileW}
    (h1 : Runs env f ops g) (h2 : Runs env g more h) : Runs env f (ops ++ more) h := by
  induction h2 with
  | nil => rw [List.append_nil]; exact h1
  | snoc a b c d ih => rw [← List.append_assoc]; exact .snoc ih b c d

theorem session_trans {env : Env} {path : Str} {ops more : List Op} {f g : FileW}
    (h1 : Session env path ops f) (h2 : Runs env f more g) : Session env path (ops ++ more) g := by
  obtain ⟨ids, f0, h0, hb, h3⟩ := h1
  exact ⟨ids, f0, h0, hb, runs_trans h3 h2⟩

/-! ### Closing -/

theorem KeyOk.writable {path : Str} {f : FileW} {k : Key} (h : KeyOk path f k)
    (hf : f.header.end_ ≤ kStartBigFile) : k.Writable := by
  have h1 : 26 ≤ kl k.name k.title k.cls := (keyLenFor_ge k.name k.title k.cls false false).1
  have h2 := dirPos_ge path
  have h3 := h.lo
  have h4 := h.hi
  rw [h.form]
  exact Key.at_writable (a := false) (b := false) (by show 0 ≤ kl k.name k.title k.cls + _; omega) (by omega)
    (by omega) h.len

theorem Inv.closable {path : Str} {f : FileW} (h : Inv path f) : f.Closable := by
  have hd := dirPos_ge path
  have hlo := h.lo
  have hhi := h.good.hi
  refine ⟨h.good, by omega, fun k hk => (h.keys k hk).writable hhi, by rw [h.hdr]; rfl, ?_,
    by rw [h.dir]; rfl, ?_⟩
  · obtain ⟨⟨r1, r2, r3, -, r5, r6, r7, r8, r9, r10, r11, r12, r13, -, -, r16, r17⟩, hw⟩ :=
      createdHeader_inRange (path := path) (by omega)
    have hv : f.header.version = 63002 := by rw [h.hdr]; rfl
    rw [h.hdr]
    refine ⟨r1, r2, r3, ?_, r5, r6, r7, r8, r9, r10, r11, r12, r13, fun _ => ?_, ?_, r16, r17⟩
    · show InI 8 f.header.end_
      unfold kStartBigFile at hhi
      constructor <;> omega
    · exact (by decide : (0 : Int) < 63002)
    · show 0 ≤ f.header.end_
      omega
  · rw [h.dir]
    show 0 ≤ (100 : Int) + (dirKeyLen path + dirNameLen path)
    unfold dirPos at hd
    omega


theorem flatMap_length_le {l : List Key} (h : ∀ k ∈ l, ((k.enc packedNow).length : Int) ≤ k.keyLen) :
    ((l.flatMap fun k => k.enc packedNow).length : Int) ≤ (l.map Key.keyLen).sum := by
  induction l with
  | nil => simp
  | cons k l ih =>
    have h1 := ih fun k hk => h k (List.mem_cons_of_mem _ hk)
    have h2 := h k (List.mem_cons_self ..)
    simp only [List.flatMap_cons, List.length_append, List.map_cons, List.sum_cons]
    omega

theorem KeyOk.encLe {path : Str} {f : FileW} {k : Key} (h : KeyOk path f k) :
    ((k.enc packedNow).length : Int) ≤ k.keyLen := by
  rw [h.form, Key.at_enc_length]
  have := extra_nonneg k.cls
  show kl k.name k.title k.cls - extra k.cls ≤ kl k.name k.title k.cls
  omega

theorem Inv.keysBytes_le {path : Str} {f : FileW} (h : Inv path f) :
    ((keysBytes f.dir).length : Int) ≤ keysLen f.dir := by
  have := flatMap_length_le (l := f.dir.keys) fun k hk => (h.keys k hk).encLe
  unfold keysBytes keysLen
  rw [List.length_append, encI_length]
  omega

/-- A closed file: what was written, record by record. -/
structure ClosedAs (env : Env) (path : Str) (f f' : FileW) (s : List StreamerInfo) (i : Nat)
    (buf : List Byte) : Prop where
  file : f' = closedFile f s i buf
  deps : findDeepStreamer env (closing1 f) = (.ok (), { closing1 f with sinfos := s, ids := i })
  infos : ∃ n w, TList.marshal TObject.default none (placedInfos env 0 s)
    (WBuffer.new infoKeyLen.toNat) = .ok (n, w) ∧ w.p = buf
  short : (buf.length : Int) ≤ kStartBigFile
  range : f'.header.InRange
  narrow : f'.header.wide = false
  end1 : (closing1 f).header.end_ =
    f.header.end_ + (kl path [] (b! "TDirectory") + keysLen f.dir)
  end2 : (closing2 f s i buf).header.end_ = (closing1 f).header.end_ + (infoKeyLen + buf.length)
  end3 : f'.header.end_ = (closing2 f s i buf).header.end_ + (kl path [] (b! "TFile") + 10)

theorem Inv.close {env : Env} {path : Str} {f f' : FileW} (h : Inv path f) (hc : Closes env f f') :
    ∃ s i buf, ClosedAs env path f f' s i buf := by
  obtain ⟨s, i, buf, n, w, hf', hd, hm, hw, -, -, -, -, -, -, hr, hwd⟩ :=
    close_ok h.closable hc.1 hc.2.end_
  have hn : f.dir.name = path := by rw [h.dir]; rfl
  have ht : f.dir.title = [] := by rw [h.dir]; rfl
  have hmem : (⟨((closing1 f).header.end_ + infoKeyLen).toNat, buf⟩ : DiskWrite) ∈ f'.trace := by
    rw [hf']
    refine List.mem_append_left _ (List.mem_append_left _ (List.mem_append_right _
      (List.mem_cons_of_mem _ (List.mem_singleton.2 ?_))))
    rfl
  have hs : (buf.length : Int) ≤ kStartBigFile := by
    have := hc.2.data _ hmem
    simp only [kStartBigFile] at *
    omega
  refine ⟨s, i, buf, hf', hd, ⟨n, w, hm, hw⟩, hs, hr, hwd, ?_, ?_, ?_⟩
  · show f.header.end_ + (kl f.dir.name f.dir.title (b! "TDirectory") + keysLen f.dir) = _
    rw [hn, ht]
  · show (closing1 f).header.end_ + (infoKeyLen + asI 4 buf.length) = _
    rw [asI4_nat hs]
  · rw [hf']
    show (closing2 f s i buf).header.end_ + (kl f.dir.name f.dir.title (b! "TFile") + 10) = _
    rw [hn, ht]


/-- The three records written by `close`, apart from the directory and the header. -/
def closingRecords (f : FileW) (s : List StreamerInfo) (i : Nat) (buf : List Byte) :
    List DiskWrite × List DiskWrite :=
  ((keysKey f f.dir).twoWrites ((keysKey f f.dir).enc packedNow),
   (infoKey (closing1 f) buf).twoWrites ((infoKey (closing1 f) buf).enc packedNow) ++
   (freeKey (closing2 f s i buf)).twoWrites ((freeKey (closing2 f s i buf)).enc packedNow))

theorem closedFile_trace (f : FileW) (s : List StreamerInfo) (i : Nat) (buf : List Byte) :
    (closedFile f s i buf).trace = f.trace ++ (closingRecords f s i buf).1 ++ [dirWrite f] ++
      (closingRecords f s i buf).2 ++
      [⟨0, List.replicate 100 0⟩, ⟨0, (closing3 f s i buf).header.oneFree.enc⟩] := by
  simp only [closedFile, closing3, afterFree, closing2, closing1, closingRecords, List.append_assoc]

theorem freeEnc_length (a b : Int) (h : b ≤ kStartBigFile) :
    (FreeSegments.enc ⟨a, b⟩).length = 10 := by
  have h' : ¬ kStartBigFile < b := by omega
  simp only [FreeSegments.enc, List.length_append, encI_length, encSeek_length, decide_eq_false h',
    Bool.false_eq_true, if_false]

theorem ClosedAs.placed {env : Env} {path : Str} {f f' : FileW} {s : List StreamerInfo} {i : Nat}
    {buf : List Byte} (h : Inv path f) (hc : ClosedAs env path f f' s i buf) :
    Placed f.header.end_ ((closingRecords f s i buf).1 ++ (closingRecords f s i buf).2)
      f'.header.end_ := by
  have hlo := h.good.lo
  have hn : f.dir.name = path := by rw [h.dir]; rfl
  have ht : f.dir.title = [] := by rw [h.dir]; rfl
  have k1 : 26 ≤ kl path [] (b! "TDirectory") := (keyLenFor_ge _ _ _ false false).1
  have k2 : 26 ≤ infoKeyLen := (keyLenFor_ge _ _ _ false false).1
  have k3 : 26 ≤ kl path [] (b! "TFile") := (keyLenFor_ge _ _ _ false false).1
  have kn := keysLen_ge h.closable.keys
  have e1 := hc.end1
  have e2 := hc.end2
  have e3 := hc.end3
  have kb := h.keysBytes_le
  unfold closingRecords
  refine Placed.append (mid := (closing1 f).header.end_) ?_
    (Placed.append (mid := (closing2 f s i buf).header.end_) ?_ ?_)
  · refine Placed.mono (Key.placed_enc hlo) ?_
    rw [hn, ht, e1]
    omega
  · refine Placed.mono (Key.placed_enc (by omega)) ?_
    rw [e2]
    exact Int.le_refl _
  · refine Placed.mono (Key.placed_enc (by omega)) ?_
    have : (closing2 f s i buf).dir.name = path := hn
    have t2 : (closing2 f s i buf).dir.title = [] := ht
    rw [this, t2, freeEnc_length _ _ (Int.le_refl _), e3]
    exact Int.le_refl _


/-! ### The directory record -/

theorem createdDir_enc_length (path : Str) (c m : Nat) : ((createdDir path).enc c m).length = 48 := by
  rw [Dir.enc_length rfl]; rfl

theorem dirPayload_length (path : Str) (d : Dir) (hu : d.uuid.length = 16) (hb : d.isBig = false) :
    ((dirPayload path d).length : Int) = dirNameLen path + 48 := by
  unfold dirPayload dirNameLen
  simp only [List.length_append, Dir.enc_length hu, hb, Int.natCast_add, tstringSizeof_eq]
  simp
  omega

theorem dirKey_placed (path : Str) :
    Placed 100 ((dirKey path).twoWrites ((dirKey path).enc packedNow)) (dirPos path + 60) := by
  refine Placed.mono (Key.placed_enc (by decide)) ?_
  rw [dirPayload_length _ _ rfl rfl]
  unfold dirPos dirKeyLen
  show 100 + (kl path [] _ + _) ≤ 100 + (kl path [] _ + _) + _
  omega

theorem dirWrite_eq {path : Str} {f : FileW} (h : Inv path f) :
    ((dirWrite f).pos : Int) = dirPos path ∧ (dirWrite f).data.length = 48 := by
  have hd := dirPos_ge path
  constructor
  · have : (dirWrite f).pos = (f.dir.seekDir + f.dir.nBytesName).toNat := rfl
    rw [this, h.dir]
    show ((100 + (dirKeyLen path + dirNameLen path)).toNat : Int) = _
    unfold dirPos at *
    omega
  · show ((closedDir f).enc packedNow packedNow).length = 48
    rw [Dir.enc_length]
    · have : (closedDir f).isBig = f.dir.isBig := rfl
      rw [this, h.good.dirBig]; rfl
    · show f.dir.uuid.length = 16
      rw [h.dir]; rfl

/-- The writes of a session: header, then records one after the other. -/
theorem Inv.records {path : Str} {f : FileW} (h : Inv path f) :
    ∃ ws, f.trace = [⟨0, List.replicate 100 0⟩, ⟨0, (createdHeader path).enc⟩] ++
      ((dirKey path).twoWrites ((dirKey path).enc packedNow) ++ ws) ∧
      Placed (dirPos path + 60) ws f.header.end_ ∧
      Placed 100 ((dirKey path).twoWrites ((dirKey path).enc packedNow) ++ ws) f.header.end_ := by
  obtain ⟨ws, t, p⟩ := h.trace
  exact ⟨ws, by rw [t]; simp [createdTrace], p, (dirKey_placed path).append p⟩

end Verif
