import Verif.Lemmas.Appended
import Verif.Lemmas.Succeeds
import Verif.Lemmas.Walk
import Verif.Props.Reopen
/-
A file that is used after it has been closed.
-/
namespace Verif

/-- The state of a file that was closed as `f0` and then used. -/
structure After (path : Str) (f0 f : FileW) : Prop where
  good : f.Good
  hdr : f.header = { f0.header with end_ := f.header.end_ }
  dir : f.dir = { f0.dir with keys := f.dir.keys }
  seekDir : f0.dir.seekDir = 100
  keys : ∀ k ∈ f.dir.keys, KeyOk path f k
  order : f.dir.keys.Pairwise fun a b => a.seekKey + a.nBytes ≤ b.seekKey
  lo : dirPos path + 60 ≤ f0.header.end_
  trace : ∃ ws, f.trace = f0.trace ++ ws ∧ Placed f0.header.end_ ws f.header.end_

variable {path : Str} {f0 : FileW}

theorem After.le {f : FileW} (h : After path f0 f) : f0.header.end_ ≤ f.header.end_ := by
  obtain ⟨ws, -, hp⟩ := h.trace
  exact hp.le

theorem After.sameBut {f f' : FileW} (h : After path f0 f)
    (hs : f' = { f with sinfos := f'.sinfos, ids := f'.ids }) : After path f0 f' := by
  rw [hs]
  exact ⟨⟨⟨h.good.span, h.good.comp, h.good.dirv⟩, h.good.lo, h.good.hi⟩, h.hdr, h.dir, h.seekDir,
    fun k hk => ⟨(h.keys k hk).form, (h.keys k hk).len, (h.keys k hk).cycle, (h.keys k hk).lo,
      (h.keys k hk).hi, (h.keys k hk).written⟩, h.order, h.lo, h.trace⟩

/-- Adding a record at the end. -/
theorem After.grow {f : FileW} (h : After path f0 f) {e : Int} {ws : List DiskWrite}
    (he : e ≤ kStartBigFile) (hp : Placed f.header.end_ ws e) {ks : List Key}
    (hk : ∀ k ∈ ks, KeyOk path { f.ended e with trace := f.trace ++ ws } k)
    (ho : ∀ k ∈ ks, f.header.end_ ≤ k.seekKey)
    (ho' : ks.Pairwise fun a b => a.seekKey + a.nBytes ≤ b.seekKey) :
    After path f0 { f.ended e with dir := { f.dir with keys := f.dir.keys ++ ks }
                                   trace := f.trace ++ ws } := by
  have hle := hp.le
  refine ⟨⟨⟨rfl, h.good.comp, h.good.dirv⟩, ?_, he⟩, ?_, ?_, h.seekDir, ?_, ?_, h.lo, ?_⟩
  · have := h.good.lo; show 0 ≤ e; omega
  · show ({ f.header with end_ := e } : FileHeader) = _
    rw [h.hdr]; rfl
  · show ({ f.dir with keys := f.dir.keys ++ ks } : Dir) = _
    rw [h.dir]
  · intro k hk'
    rcases List.mem_append.1 hk' with h1 | h1
    · have := h.keys k h1
      refine ⟨this.form, this.len, this.cycle, this.lo, ?_, fun w hw => ?_⟩
      · have h2 := this.hi
        show _ ≤ e
        omega
      · exact List.mem_append_left _ (this.written w hw)
    · have := hk k h1
      exact ⟨this.form, this.len, this.cycle, this.lo, this.hi, this.written⟩
  · show (f.dir.keys ++ ks).Pairwise _
    rw [List.pairwise_append]
    refine ⟨h.order, ho', fun a ha b hb => ?_⟩
    have h1 := (h.keys a ha).hi
    rw [(h.keys a ha).nBytes]
    have := ho b hb
    omega
  · obtain ⟨vs, h1, h2⟩ := h.trace
    exact ⟨vs ++ ws, by show f.trace ++ ws = _; rw [h1, List.append_assoc], h2.append hp⟩

theorem After.seekDir' {f : FileW} (h : After path f0 f) : f.dir.seekDir = 100 := by
  rw [h.dir]; exact h.seekDir

theorem After.keyLenFor {f : FileW} (h : After path f0 f) (n t c : Str) :
    f.keyLenFor n t c = kl n t c := keyLenFor_notBig h.good.dirBig h.good.notBig n t c

theorem put_after {env : Env} {name : Str} {obj : PutObj} {f f' : FileW} {u : Unit}
    (hi : After path f0 f) (h : put env name obj f = (.ok u, f')) (hb : f'.Below2GB) :
    After path f0 f' ∧ ∃ m w k,
      obj.marshal (WBuffer.new (kl (putName name obj) obj.title obj.cls).toNat) = .ok (m, w) ∧
      (∃ cy, k = Key.at (putName name obj) obj.title obj.cls cy
        w.p.length (kl (putName name obj) obj.title obj.cls) f.header.end_ 100 false w.p) ∧
      f'.dir.keys = f.dir.keys ++ [k] ∧ f'.trace = f.trace ++ k.twoWrites (k.enc packedNow) ∧
      Placed f.header.end_ (k.twoWrites (k.enc packedNow)) f'.header.end_ := by
  obtain ⟨-, c, f1, m, w, hc, ha, hm, il, hw, rfl⟩ := put_ok hi.good h
  rw [hi.keyLenFor] at hm il
  have hi1 := hi.sameBut ha.same
  have hs := ha.same
  have hd : f1.dir = f.dir := by rw [hs]
  have hh : f1.header = f.header := by rw [hs]
  have hmem : (⟨(f.header.end_ + kl (putName name obj) obj.title obj.cls).toNat, w.p⟩ : DiskWrite) ∈
      (afterPut f1 (putKey f name obj (asI 2 (c + 1)) w.p)).trace := by
    refine List.mem_append_right _ (List.mem_cons_of_mem _ (List.mem_singleton.2 ?_))
    rw [← hi.keyLenFor]
    rfl
  have hlen : (w.p.length : Int) ≤ kStartBigFile := by
    have := hb.data _ hmem
    simp only [kStartBigFile] at *
    omega
  have hkey : putKey f name obj (asI 2 (c + 1)) w.p =
      Key.at (putName name obj) obj.title obj.cls (asI 2 (c + 1))
        w.p.length (kl (putName name obj) obj.title obj.cls) f.header.end_ 100 false w.p := by
    unfold putKey
    rw [hi.keyLenFor, hi.seekDir', hi.good.notBig, asI4_nat hlen]
  rw [hkey] at hb hw ⊢
  have hlo := hi.good.lo
  have hp := Key.placed_enc (n := putName name obj) (t := obj.title) (c := obj.cls)
    (cy := asI 2 (c + 1)) (len := w.p.length) (pdir := 100) (buf := w.p) hlo
  have hend : f.header.end_ + (kl (putName name obj) obj.title obj.cls + w.p.length) ≤ kStartBigFile := by
    have := hb.end_
    rw [← hh]
    exact this
  have ht : f1.trace = f.trace := by rw [hs]
  refine ⟨?_, m, w, _, hm, ⟨asI 2 (c + 1), rfl⟩, by simp [afterPut, hd], by simp [afterPut, ht],
    by simp only [afterPut, FileW.ended, hh]; exact hp⟩
  refine hi1.grow (ks := [_]) (by rw [hh]; exact hend) (by rw [hh]; exact hp) ?_ ?_ ?_
  · intro k hk
    rw [List.mem_singleton] at hk
    subst hk
    refine ⟨rfl, il, asI_inI (by decide) _, ?_, ?_, fun v hv => List.mem_append_right _ hv⟩
    · have := hi.lo
      have := hi.le
      show dirPos path + 60 ≤ f.header.end_
      omega
    · show f.header.end_ + _ ≤ f1.header.end_ + _
      rw [hh]
      exact Int.le_refl _
  · intro k hk
    rw [List.mem_singleton] at hk
    subst hk
    rw [hh]
    exact Int.le_refl _
  · exact List.pairwise_singleton _ _

theorem basket_after {b b' : WBasket} {n m : Int} {f f' : FileW} (hi : After path f0 f)
    (h : b.writeToFile f = (.ok (b', n, m), f')) (hb : f'.Below2GB) : After path f0 f' ∧
    f'.dir.keys = f.dir.keys ∧ ∃ ws, f'.trace = f.trace ++ ws ∧ Placed f.header.end_ ws f'.header.end_ := by
  obtain ⟨w, hw, i1, i2, hwr, hb', hn, hm, hf'⟩ := WBasket.writeToFile_ok hi.good h
  have hk : b'.basket.key = basketKey f b.basket w.p := by rw [hb']
  have hmem : (⟨(f.header.end_ + kl b.basket.key.name b.basket.key.title (b! "TBasket")).toNat, w.p⟩ :
      DiskWrite) ∈ f'.trace := by
    rw [hf']
    unfold afterBasket
    refine List.mem_append_right _ (List.mem_cons_of_mem _ (List.mem_singleton.2 ?_))
    rw [hk, ← hi.keyLenFor]
    rfl
  have hlen : (w.p.length : Int) ≤ kStartBigFile := by
    have := hb.data _ hmem
    simp only [kStartBigFile] at *
    omega
  have hkey : b'.basket.key = Key.at b.basket.key.name b.basket.key.title (b! "TBasket")
      b.basket.key.cycle w.p.length (kl b.basket.key.name b.basket.key.title (b! "TBasket"))
      f.header.end_ 100 false w.p := by
    rw [hk]
    unfold basketKey
    rw [hi.keyLenFor, hi.seekDir', hi.good.notBig, asI4_nat hlen]
  have hend := hb.end_
  rw [hf'] at hend
  unfold afterBasket at hend hf'
  rw [hkey] at hend hf'
  have hp : Placed f.header.end_ ((Key.at b.basket.key.name b.basket.key.title (b! "TBasket")
      b.basket.key.cycle w.p.length (kl b.basket.key.name b.basket.key.title (b! "TBasket"))
      f.header.end_ 100 false w.p).twoWrites ((Key.at b.basket.key.name b.basket.key.title (b! "TBasket")
      b.basket.key.cycle w.p.length (kl b.basket.key.name b.basket.key.title (b! "TBasket"))
      f.header.end_ 100 false w.p).enc packedNow ++ b'.basket.tail))
      (f.header.end_ + (kl b.basket.key.name b.basket.key.title (b! "TBasket") + w.p.length)) := by
    refine Key.placed hi.good.lo ?_
    rw [List.length_append, Basket.tail_length, Int.natCast_add, Key.at_enc_length]
    unfold extra
    rw [if_pos rfl]
    omega
  have := hi.grow (ks := []) hend hp (by intro k hk; cases hk) (by intro k hk; cases hk)
    List.Pairwise.nil
  rw [hf']
  rw [List.append_nil] at this
  exact ⟨this, rfl, _, rfl, hp⟩

/-- The key is the one `put` makes for an object stored under a name. -/
def MadeFor (p : Str × PutObj) (k : Key) : Prop :=
  k.name = p.1 ∧ k.cls = p.2.cls ∧ k.title = p.2.title ∧
  ∃ n w, p.2.marshal (WBuffer.new k.keyLen.toNat) = .ok (n, w) ∧ k.buffer = w.p

/-- What calls added to a file: keys for the objects that were accepted, records beyond the end. -/
def Added (f g : FileW) (acc : List (Str × PutObj)) : Prop :=
  ∃ ks ws, g.dir.keys = f.dir.keys ++ ks ∧ g.trace = f.trace ++ ws ∧
    Placed f.header.end_ ws g.header.end_ ∧
    (∀ k ∈ ks, ∀ w ∈ k.twoWrites (k.enc packedNow), w ∈ ws) ∧ Pairs MadeFor acc ks

theorem Added.none {f g : FileW} (h1 : g.dir.keys = f.dir.keys) (h2 : g.trace = f.trace)
    (h3 : g.header.end_ = f.header.end_) : Added f g [] :=
  ⟨[], [], by rw [h1, List.append_nil], by rw [h2, List.append_nil], Int.le_of_eq h3.symm,
    (fun k hk => by cases hk), .nil⟩

theorem Added.trans {f g h : FileW} {a b : List (Str × PutObj)} (h1 : Added f g a) (h2 : Added g h b) :
    Added f h (a ++ b) := by
  obtain ⟨ks, ws, e1, e2, p, hw, hm⟩ := h1
  obtain ⟨ks', ws', e1', e2', p', hw', hm'⟩ := h2
  refine ⟨ks ++ ks', ws ++ ws', by rw [e1', e1, List.append_assoc], by rw [e2', e2, List.append_assoc],
    p.append p', fun k hk w hw'' => ?_, hm.append hm'⟩
  rcases List.mem_append.1 hk with hk | hk
  · exact List.mem_append_left _ (hw k hk w hw'')
  · exact List.mem_append_right _ (hw' k hk w hw'')

theorem step_after {env : Env} {op : Op} {r : Res Unit} {f f' : FileW} (hi : After path f0 f)
    (h : op.run env f = (r, f')) (hr : r ≠ .error .panic) (hb : f'.Below2GB) :
    After path f0 f' ∧ Added f f' (op.accepted env f) := by
  have sb : f' = { f with sinfos := f'.sinfos, ids := f'.ids } → Added f f' [] := by
    intro e
    exact .none (by rw [e]) (by rw [e]) (by rw [e])
  cases op with
  | put name obj =>
    have hacc : ∀ e, r = .error e → (Op.put name obj).accepted env f = [] := by
      intro e he
      unfold Op.accepted
      rw [h, he]
    rcases r with (e | e) | u
    · rw [hacc _ rfl]
      rcases put_err hi.good h with rfl | ha
      · exact ⟨hi, sb rfl⟩
      · exact ⟨hi.sameBut ha.same, sb ha.same⟩
    · exact absurd rfl hr
    · obtain ⟨h1, m, w, k, hm, ⟨cy, hk⟩, h2, h3, h4⟩ := put_after hi h hb
      refine ⟨h1, [k], _, h2, h3, h4, ?_, ?_⟩
      · intro k' hk' w hw
        rw [List.mem_singleton] at hk'
        rw [hk'] at hw
        exact hw
      · have : (Op.put name obj).accepted env f = [(storedName name obj, obj)] := by
          unfold Op.accepted
          rw [h]
        rw [this, hk]
        exact .cons ⟨rfl, rfl, rfl, m, w, hm, rfl⟩ .nil
  | basket b =>
    simp only [Op.run] at h
    generalize hw : b.writeToFile f = x at h
    obtain ⟨(e | e) | ⟨b', n, m⟩, f1⟩ := x
    · exact absurd hw (WBasket.writeToFile_err hi.good)
    · cases h; exact absurd rfl hr
    · cases h
      obtain ⟨h1, h2, ws, h3, h4⟩ := basket_after hi hw hb
      refine ⟨h1, [], ws, by rw [h2, List.append_nil], h3, h4, (fun k hk => by cases hk), ?_⟩
      exact .nil
  | register si =>
    simp only [Op.run] at h
    rw [registerInfo_eq] at h
    cases h
    exact ⟨hi.sameBut rfl, sb rfl⟩

theorem runs_after {env : Env} {ops : List Op} {f g : FileW} (hi : After path f0 f)
    (h : Runs env f ops g) : After path f0 g ∧ Added f g (acceptedPuts env f ops) := by
  induction h with
  | nil => exact ⟨hi, .none rfl rfl rfl⟩
  | snoc h1 h2 h3 h4 ih =>
    obtain ⟨a, b⟩ := step_after ih.1 h2 h3 h4
    refine ⟨a, ?_⟩
    rw [acceptedPuts_snoc, ← h1.end_eq]
    exact ih.2.trans b

/-- The keys of a new file. -/
theorem runs_made {env : Env} {ops : List Op} {f g : FileW} (hi : Inv path f)
    (h0 : f.dir.keys = []) (h : Runs env f ops g) : Pairs MadeFor (acceptedPuts env f ops) g.dir.keys := by
  induction h with
  | nil => rw [h0]; exact .nil
  | @snoc ops g1 op r g' h1 h2 h3 h4 ih =>
    rw [acceptedPuts_snoc, ← h1.end_eq]
    rcases step_dir (runs_inv hi h1) h2 h3 h4 with ⟨hk', hno⟩ | ⟨name, obj, c, m, w, k', rfl, rfl, -, hm, rfl, hk'⟩
    · have : op.accepted env g1 = [] := by
        unfold Op.accepted
        rw [h2]
        cases op with
        | put name obj =>
          rcases r with e | u
          · rfl
          · exact absurd rfl (hno name obj rfl)
        | basket b => rfl
        | register si => rfl
      rw [this, List.append_nil, hk']
      exact ih
    · have : (Op.put name obj).accepted env g1 = [(storedName name obj, obj)] := by
        unfold Op.accepted
        rw [h2]
      rw [this, hk']
      exact ih.append (.cons ⟨rfl, rfl, rfl, m, w, hm, rfl⟩ .nil)

/-- A closed file. -/
theorem ClosedAs.after {env : Env} {f f' : FileW} {s : List StreamerInfo} {i : Nat} {buf : List Byte}
    (hi : Inv path f) (hc : ClosedAs env path f f' s i buf) (hb : f'.header.end_ ≤ kStartBigFile) :
    After path f' f' := by
  have he := hc.ends hi
  have hlo := hi.lo
  have hdir : f'.dir = closedDir f := by rw [hc.file]; rfl
  refine ⟨⟨⟨?_, ?_, ?_⟩, by omega, hb⟩, rfl, rfl, ?_, ?_, ?_, by omega, [], (List.append_nil _).symm,
    Int.le_refl _⟩
  · rw [hc.file]; rfl
  · rw [hc.header hi]; rfl
  · rw [hdir]; exact hi.good.dirv
  · rw [hdir]; exact hi.seekDir
  · intro k hk
    rw [hdir] at hk
    have := hi.keys k hk
    have h2 := this.hi
    refine ⟨this.form, this.len, this.cycle, this.lo, by omega, fun w hw => ?_⟩
    rw [hc.trace]
    have := this.written w hw
    simp only [List.mem_append]
    exact Or.inl (Or.inl (Or.inl (Or.inl this)))
  · rw [hdir]; exact hi.order

/-! ### The bytes on disk -/

theorem writeAt_prefix {a img : List Byte} {w : DiskWrite} (h : a <+: img) (hw : a.length ≤ w.pos) :
    a <+: writeAt img w := by
  obtain ⟨t, rfl⟩ := h
  unfold writeAt
  split
  · exact List.prefix_append _ _
  · rw [List.take_append, List.take_of_length_le hw]
    simp only [List.append_assoc]
    exact List.prefix_append _ _

theorem foldl_prefix {a : List Byte} {ws : List DiskWrite} {img : List Byte} (h : a <+: img)
    (hw : ∀ w ∈ ws, a.length ≤ w.pos) : a <+: ws.foldl writeAt img := by
  induction ws generalizing img with
  | nil => exact h
  | cons w ws ih =>
    exact ih (writeAt_prefix h (hw w (List.mem_cons_self ..))) fun v hv => hw v (List.mem_cons_of_mem _ hv)

theorem image_prefix {a b : List DiskWrite} (h : ∀ w ∈ b, (image a).length ≤ w.pos) :
    image a <+: image (a ++ b) := by
  rw [image_append]
  exact foldl_prefix (List.prefix_refl _) h

/-- Whatever part of the later writes reached the disk. -/
theorem crashImage_prefix {a b : List DiskWrite} (h : ∀ w ∈ b, (image a).length ≤ w.pos) (n k : Nat)
    (hn : a.length ≤ n) : image a <+: crashImage (a ++ b) n k := by
  have h1 : image a <+: image ((a ++ b).take n) := by
    rw [List.take_append, List.take_of_length_le hn]
    exact image_prefix fun w hw => h w (List.mem_of_mem_take hw)
  unfold crashImage
  split
  · exact h1
  next w hw =>
    refine writeAt_prefix h1 ?_
    refine h w ?_
    rw [List.getElem?_append_right hn] at hw
    exact List.mem_of_getElem? hw

/-! ### Closing again -/

theorem After.closable {env : Env} {f f' g : FileW} {s : List StreamerInfo} {i : Nat} {buf : List Byte}
    (hi : Inv path f) (hc : ClosedAs env path f f' s i buf) (ha : After path f' g) :
    (∀ k ∈ g.dir.keys, k.Writable) ∧ g.dir.name = path ∧ g.dir.title = [] ∧ g.dir.seekDir = 100 ∧
    g.dir.nBytesName = dirKeyLen path + dirNameLen path ∧ g.dir.uuid.length = 16 ∧ g.dir.rvers = 5 ∧
    g.dir.seekParent = 0 ∧ g.dir.ctime = dateNow := by
  have hdir : f'.dir = closedDir f := by rw [hc.file]; rfl
  have e : g.dir = { closedDir f with keys := g.dir.keys } := by rw [ha.dir, hdir]
  refine ⟨fun k hk => (ha.keys k hk).writable ha.good.hi, ?_, ?_, ha.seekDir', ?_, ?_, ?_, ?_, ?_⟩ <;>
    (rw [e]; simp only [closedDir]; rw [hi.dir]; rfl)

/-- The list of the keys of a file that is used after it was closed. -/
theorem After.keysBytes_le {f : FileW} (h : After path f0 f) :
    ((keysBytes f.dir).length : Int) ≤ keysLen f.dir := by
  have := flatMap_length_le (l := f.dir.keys) fun k hk => (h.keys k hk).encLe
  unfold keysBytes keysLen
  rw [List.length_append, encI_length]
  omega

theorem After.few_keys {f : FileW} (hi : After path f0 f) :
    26 * (f.dir.keys.length : Int) + 4 ≤ keysLen f.dir := by
  unfold keysLen
  have : ∀ l : List Key, (∀ k ∈ l, 26 ≤ k.keyLen) → 26 * (l.length : Int) ≤ (l.map Key.keyLen).sum := by
    intro l
    induction l with
    | nil => intro _; simp
    | cons k l ih =>
      intro h
      have h1 := ih fun k hk => h k (List.mem_cons_of_mem _ hk)
      have h2 := h k (List.mem_cons_self ..)
      simp only [List.length_cons, List.map_cons, List.sum_cons]
      omega
  have := this f.dir.keys fun k hk => by
    rw [(hi.keys k hk).form]
    exact (keyLenFor_ge _ _ _ false false).1
  omega

/-- A call that leaves the file as it is, whatever its result. -/
def Fs.Still {α} (m : Fs α) : Prop := ∀ f, (m f).2.trace = f.trace ∧ (m f).2.header = f.header

theorem Fs.Still.bind {α β} {m : Fs α} {g : α → Fs β} (h : m.Still) (hg : ∀ a, (g a).Still) :
    (m >>= g).Still := by
  intro f
  have h1 := h f
  generalize hm : m f = x at h1
  obtain ⟨e | a, f'⟩ := x
  · rw [Fs.bind_of_error hm]; exact h1
  · rw [Fs.bind_of_ok hm]
    have := hg a f'
    exact ⟨this.1.trans h1.1, this.2.trans h1.2⟩

theorem Fs.Still.pure {α} (a : α) : (Pure.pure a : Fs α).Still := fun _ => ⟨rfl, rfl⟩

theorem Fs.Still.lift {α} (x : Res α) : (Fs.lift x).Still := by
  intro f
  cases x <;> exact ⟨rfl, rfl⟩

theorem dictionary_still (env : Env) (name : Str) (vers : Int) : (Fs.dictionary env name vers).Still :=
  Fs.Still.bind (fun _ => ⟨rfl, rfl⟩) fun _ => (Fs.Still.lift _).bind fun _ =>
    Fs.Still.bind (fun _ => ⟨rfl, rfl⟩) fun _ => .pure _

theorem addDeps_still (env : Env) (ds : List (Str × Int)) : (addDeps env ds).Still := by
  induction ds with
  | nil => exact .pure _
  | cons d ds ih =>
    unfold addDeps
    split
    · exact ih
    · exact (dictionary_still _ _ _).bind fun si =>
        Fs.Still.bind (fun f => by rw [addStreamerInfo_eq]; exact ⟨rfl, rfl⟩) fun _ => ih

theorem findDeepStreamer_still (env : Env) : (findDeepStreamer env).Still :=
  Fs.Still.bind (fun _ => ⟨rfl, rfl⟩) fun _ => (Fs.Still.lift _).bind fun _ =>
    Fs.Still.bind (fun _ => ⟨rfl, rfl⟩) fun _ => addDeps_still _ _

/-- A file that has a list of class records is not given another one. -/
theorem writeStreamerInfo_again {env : Env} {f f' : FileW} {r : Res Unit} (hs : f.header.seekInfo ≠ 0)
    (h : writeStreamerInfo env f = (r, f')) : r ≠ .ok () ∧ f'.trace = f.trace := by
  unfold writeStreamerInfo at h
  have h1 := findDeepStreamer_still env f
  generalize hm : findDeepStreamer env f = x at h1
  obtain ⟨e | a, f1⟩ := x
  · rw [Fs.bind_of_error hm] at h
    cases h
    exact ⟨by simp, h1.1⟩
  · rw [Fs.bind_of_ok hm, Fs.bind_of_ok (Fs.ok_get.2 ⟨rfl, rfl⟩)] at h
    rw [if_pos (by rw [h1.2]; exact hs)] at h
    cases h
    exact ⟨by simp, h1.1⟩

theorem writeStreamerInfo_stops {env : Env} {k : Unit → Fs Unit} {f f' : FileW} {r : Res Unit}
    (hs : f.header.seekInfo ≠ 0) (h : (writeStreamerInfo env >>= k) f = (r, f')) : f'.trace = f.trace := by
  generalize hw : writeStreamerInfo env f = x at h
  obtain ⟨e | u, g1⟩ := x
  · rw [Fs.bind_of_error hw] at h
    cases h
    exact (writeStreamerInfo_again hs hw).2
  · exact absurd rfl (writeStreamerInfo_again hs hw).1

section
variable {env : Env} {f f' g g' : FileW} {s : List StreamerInfo} {i : Nat} {buf : List Byte}

theorem After.seekInfo (hi : Inv path f) (hc : ClosedAs env path f f' s i buf) (ha : After path f' g) :
    g.header.seekInfo ≠ 0 := by
  have he := hc.ends hi
  have h1 : g.header.seekInfo = f'.header.seekInfo := by rw [ha.hdr]
  have h2 : f'.header.seekInfo = (closing1 f).header.end_ := by rw [hc.header hi]
  omega

/-- Closing again never succeeds. -/
theorem After.close_again (hi : Inv path f) (hc : ClosedAs env path f f' s i buf) (ha : After path f' g)
    {r : Res Unit} (h : closeFile env g = (r, g')) : r ≠ .ok () := by
  rintro rfl
  have hs := ha.seekInfo hi hc
  obtain ⟨c1, c2, c3, c4, c5, -, -, -, c9⟩ := ha.closable hi hc
  unfold closeFile at h
  rw [Fs.bind_of_ok (Fs.ok_get.2 ⟨rfl, rfl⟩)] at h
  obtain ⟨d1, f1, h0, h1⟩ := Fs.ok_bind.1 h
  obtain ⟨a1, a2, a3, a4⟩ := saveKeys_ok ha.good c1 h0
  obtain ⟨d2, f2, h2, h3⟩ := Fs.ok_bind.1 h1
  have hd := dirPos_ge path
  rw [writeDirHeader_eq f1 (by rw [a3]; exact c9) (by
    rw [a3]
    show 0 ≤ g.dir.seekDir + g.dir.nBytesName
    have : dirPos path = 100 + (dirKeyLen path + dirNameLen path) := rfl
    omega)] at h2
  cases h2
  obtain ⟨_, f3, h4, h5⟩ := Fs.ok_bind.1 h3
  cases Fs.ok_modify.1 h4
  obtain ⟨_, f4, h6, h7⟩ := Fs.ok_bind.1 h5
  refine (writeStreamerInfo_again ?_ h6).1 rfl
  show f1.header.seekInfo ≠ 0
  rw [a1]
  exact hs

/-- The list of keys and the directory record can be saved. -/
theorem After.saveKeys_small (hi : Inv path f) (hc : ClosedAs env path f f' s i buf) (ha : After path f' g)
    (hroom : g.header.end_ + (kl path [] (b! "TDirectory") + keysLen g.dir) ≤ 2000000000) :
    ∃ d' g1, saveKeys g.dir g = (.ok d', g1) ∧ g1.header.end_ ≤ kStartBigFile := by
  obtain ⟨hk, hn, ht, -⟩ := ha.closable hi hc
  have hnn : ∀ x ∈ g.dir.keys.map Key.keyLen, 0 ≤ x := by
    intro x hx
    obtain ⟨k, hk', rfl⟩ := List.mem_map.1 hx
    exact (hk k hk').keyLen
  have h0 := sum_nonneg hnn
  have h26 : 26 ≤ kl path [] (b! "TDirectory") := (keyLenFor_ge _ _ _ false false).1
  have hlo := ha.lo
  have hle := ha.le
  have hdp := dirPos_ge path
  have hkl : g.keyLenFor g.dir.name g.dir.title (b! "TDirectory") = kl path [] (b! "TDirectory") := by
    rw [ha.keyLenFor, hn, ht]
  unfold saveKeys
  rw [Fs.bind_of_ok (Fs.ok_get.2 ⟨rfl, rfl⟩), ha.good.notBig]
  simp only [Bool.false_eq_true, if_false]
  have hK : 4 + (g.dir.keys.map Key.keyLen).sum = keysLen g.dir := rfl
  have h1 := Fs.sum_eq (acc := 4) g hnn (by decide) (by omega)
  rw [hK] at h1
  rw [Fs.bind_of_ok h1, Fs.bind_of_ok (Key.new_eq ha.good.span (by omega) (by rw [hkl]; omega)),
    Fs.bind_of_ok (Fs.marshal_writes (keys_writes hk) _)]
  have hwr := Key.at_writable (n := g.dir.name) (t := g.dir.title) (c := b! "TDirectory") (cy := 1) (len := keysLen g.dir)
    (seek := g.header.end_) (a := g.dir.isBig) (b := g.isBig)
    (big := (g.ended (g.header.end_ + (keysLen g.dir + g.keyLenFor g.dir.name g.dir.title (b! "TDirectory")))).isBig)
    (pdir := g.dir.seekDir) (buf := keysBytes g.dir)
    (by show 0 ≤ g.keyLenFor g.dir.name g.dir.title (b! "TDirectory") + _; rw [hkl]; omega) (by omega)
    (by unfold kStartBigFile; omega)
    (by show InI 4 (g.keyLenFor g.dir.name g.dir.title (b! "TDirectory"))
        rw [hkl]; exact inI4_abs (by omega) (by omega))
  refine ⟨_, _, Fs.bind_of_ok (Key.writeToFile_eq hwr _), ?_⟩
  show g.header.end_ + (keysLen g.dir + g.keyLenFor g.dir.name g.dir.title (b! "TDirectory")) ≤ 2000000000
  rw [hkl]
  omega

/-- How far closing again gets. -/
theorem After.close_aborts (hi : Inv path f) (hc : ClosedAs env path f f' s i buf) (ha : After path f' g)
    (hroom : g.header.end_ + (kl path [] (b! "TDirectory") + keysLen g.dir) ≤ 2000000000)
    {r : Res Unit} (h : closeFile env g = (r, g')) : g'.trace = (closing1 g).trace := by
  have hs := ha.seekInfo hi hc
  obtain ⟨c1, c2, c3, c4, c5, -, -, -, c9⟩ := ha.closable hi hc
  obtain ⟨d1, f1, h0, hb⟩ := ha.saveKeys_small hi hc hroom
  obtain ⟨a1, a2, a3, a4⟩ := saveKeys_ok ha.good c1 h0
  unfold closeFile at h
  rw [Fs.bind_of_ok (Fs.ok_get.2 ⟨rfl, rfl⟩), Fs.bind_of_ok h0] at h
  have hd := dirPos_ge path
  rw [Fs.bind_of_ok (writeDirHeader_eq f1 (by rw [a3]; exact c9) (by
    rw [a3]
    show 0 ≤ g.dir.seekDir + g.dir.nBytesName
    have : dirPos path = 100 + (dirKeyLen path + dirNameLen path) := rfl
    omega)), Fs.bind_of_ok (a := ()) (Fs.ok_modify.2 rfl)] at h
  rw [writeStreamerInfo_stops (by
    show f1.header.seekInfo ≠ 0
    rw [a1]
    exact hs) h]
  show f1.trace ++ _ = _
  rw [a4 hb, a3]
  rfl

/-- The directory record that is written again. -/
theorem After.dirWrite_eq (hi : Inv path f) (hc : ClosedAs env path f f' s i buf) (ha : After path f' g) :
    ((dirWrite g).pos : Int) = dirPos path ∧ (dirWrite g).data.length = 48 := by
  obtain ⟨c1, c2, c3, c4, c5, c6, -⟩ := ha.closable hi hc
  have hd := dirPos_ge path
  constructor
  · have : (dirWrite g).pos = (g.dir.seekDir + g.dir.nBytesName).toNat := rfl
    rw [this, c4, c5]
    unfold dirPos at *
    omega
  · show ((closedDir g).enc packedNow packedNow).length = 48
    rw [Dir.enc_length]
    · have : (closedDir g).isBig = g.dir.isBig := rfl
      rw [this, ha.good.dirBig]; rfl
    · exact c6

/-- What is on disk when closing again has stopped. -/
theorem After.aborted (hi : Inv path f) (hc : ClosedAs env path f f' s i buf) (ha : After path f' g) :
    ∃ ws, g.trace = f'.trace ++ ws ∧ Placed f'.header.end_ ws g.header.end_ ∧
    (∀ pos data, Stored (image f'.trace) pos data → (pos + data.length : Int) ≤ f'.header.end_ →
      ((pos + data.length : Int) ≤ dirPos path ∨ dirPos path + 48 ≤ pos) →
      Stored (image (closing1 g).trace) pos data) ∧
    (∀ w, w ∈ ws ∨ w ∈ (keysKey g g.dir).twoWrites ((keysKey g g.dir).enc packedNow) →
      Stored (image (closing1 g).trace) w.pos w.data) ∧
    Stored (image (closing1 g).trace) (dirWrite g).pos (dirWrite g).data ∧
    f'.header.end_ ≤ (image (closing1 g).trace).length := by
  obtain ⟨ws, ht, hp⟩ := ha.trace
  obtain ⟨hk, hn, ht', hsd, -⟩ := ha.closable hi hc
  have hd := dirPos_ge path
  have hdw := ha.dirWrite_eq hi hc
  have hlo := ha.lo
  have hkeys : Placed g.header.end_ ((keysKey g g.dir).twoWrites ((keysKey g g.dir).enc packedNow))
      (g.header.end_ + (kl path [] (b! "TDirectory") + keysLen g.dir)) := by
    have hkb := ha.keysBytes_le
    have := Key.placed_enc (n := g.dir.name) (t := g.dir.title) (c := b! "TDirectory") (cy := 1)
      (len := keysLen g.dir) (seek := g.header.end_) (pdir := g.dir.seekDir) (buf := keysBytes g.dir) ha.good.lo
    refine Placed.mono this ?_
    rw [hn, ht']
    show g.header.end_ + (kl path [] (b! "TDirectory") + (keysBytes g.dir).length) ≤ _
    omega
  have hall := hp.append hkeys
  have e : (closing1 g).trace = f'.trace ++
      (ws ++ (keysKey g g.dir).twoWrites ((keysKey g g.dir).enc packedNow)) ++ [dirWrite g] := by
    unfold closing1
    rw [ht]
    simp only [List.append_assoc]
  refine ⟨ws, ht, hp, ?_, ?_, ?_, ?_⟩
  · intro pos data h1 h2 h3
    rw [e, List.append_assoc, image_append]
    refine h1.foldl fun w hw => ?_
    rcases List.mem_append.1 hw with hw | hw
    · have := (hall.mem hw).1
      exact Or.inl (by omega)
    · rw [List.mem_singleton] at hw
      subst hw
      rcases h3 with h3 | h3
      · exact Or.inl (by omega)
      · exact Or.inr (by omega)
  · intro w hw
    rw [e]
    refine hall.stored (List.mem_append.2 hw) fun v hv _ => ?_
    rw [List.mem_singleton] at hv
    subst hv
    have := (hall.mem (List.mem_append.2 hw)).1
    exact Or.inr (by omega)
  · rw [e, image_append]
    exact Stored.written _ _
  · rw [e, List.append_assoc, image_append]
    have := hc.image_length hi
    have := foldl_length_ge (ws ++ (keysKey g g.dir).twoWrites ((keysKey g g.dir).enc packedNow) ++ [dirWrite g])
      (image f'.trace)
    omega

/-- A list of keys none of which claims to be a basket fills its record. -/
theorem After.keysBytes_eq (ha : After path f0 g) (hno : ∀ k ∈ g.dir.keys, k.cls ≠ b! "TBasket") :
    ((keysBytes g.dir).length : Int) = keysLen g.dir := by
  have : ∀ l : List Key, (∀ k ∈ l, KeyOk path g k ∧ k.cls ≠ b! "TBasket") →
      ((l.flatMap fun k => k.enc packedNow).length : Int) = (l.map Key.keyLen).sum := by
    intro l
    induction l with
    | nil => intro _; rfl
    | cons k l ih =>
      intro h
      have h1 := ih fun k hk => h k (List.mem_cons_of_mem _ hk)
      obtain ⟨h2, h3⟩ := h k (List.mem_cons_self ..)
      have h4 : ((k.enc packedNow).length : Int) = k.keyLen := by
        rw [h2.form, Key.at_enc_length]
        unfold extra
        rw [if_neg h3]
        exact Int.sub_zero _
      simp only [List.flatMap_cons, List.length_append, List.map_cons, List.sum_cons]
      omega
  have := this g.dir.keys fun k hk => ⟨ha.keys k hk, hno k hk⟩
  unfold keysBytes keysLen
  rw [List.length_append, encI_length]
  omega

/-- Opening a file whose second close has stopped. -/
theorem After.open_aborted (he : env.Sound) (hi : Inv path f) (hc : ClosedAs env path f f' s i buf)
    (ha : After path f' g) (hb : f'.header.end_ ≤ kStartBigFile) (hu : utf8 path = true)
    (hp : dirKeyLen path + dirNameLen path ≤ 1000) (hk : KeysFit g)
    (hno : ∀ k ∈ g.dir.keys, k.cls ≠ b! "TBasket")
    (hroom : g.header.end_ + (kl path [] (b! "TDirectory") + keysLen g.dir) ≤ 2000000000)
    (hko : InfosOk s i) (had : ∀ j, i ≤ env.addr j)
    (hsmall : f'.header.nBytesInfo < 2 ^ 30) (hs : s.length < 2 ^ 31) (dec : Decoders) (fuel : Nat) :
    openFile dec (fuel + 3) (image (closing1 g).trace) = .ok
      { header := f'.header, spans := [⟨f'.header.end_, kStartBigFile⟩]
        sinfos := (s.map StreamerInfo.expected).reverse
        dir := { (closedDir g).afterRead packedNow packedNow with
          className := b! "TFile", name := path, keys := g.dir.keys.map Key.listed }
        img := image (closing1 g).trace } := by
  have hen := hc.ends hi
  have hh := hc.header hi
  have hlo := ha.lo
  have hle := ha.le
  have hdp := dirPos_ge path
  have hdp' : dirPos path = 100 + (dirKeyLen path + dirNameLen path) := rfl
  obtain ⟨c1, n3, n4, n5, c5, c6, c7, c8, c9⟩ := ha.closable hi hc
  obtain ⟨ws, ht, hpl, kept, new, dirw, hlen⟩ := ha.aborted hi hc
  have hdw := ha.dirWrite_eq hi hc
  have kn := keysLen_ge c1
  have k1 : 26 ≤ kl path [] (b! "TDirectory") := (keyLenFor_ge _ _ _ false false).1
  have hkb := ha.keysBytes_eq hno
  have v1 : f'.header.seekInfo = (closing1 f).header.end_ := by rw [hh]
  have v2 : f'.header.seekFree = (closing2 f s i buf).header.end_ := by rw [hh]
  -- the header
  have hl := FileHeader.enc_length hc.range
  rw [hc.narrow] at hl
  have hhd : Stored (image (closing1 g).trace) 0 f'.header.enc := by
    refine kept 0 _ hc.stored_header ?_ (Or.inl ?_) <;> (rw [hl]; simp only [Bool.false_eq_true, if_false]; omega)
  obtain ⟨rest, r1, -⟩ := readAt_more (pos := 0) (len := 64 + 12) (Int.le_refl _)
    (by rw [hl]; decide) (by omega) hhd
  have r2 : readWith FileHeader.unmarshal (f'.header.enc ++ rest) = .ok f'.header :=
    readWith_reads (FileHeader.reads hc.range) rfl
  -- the records of the first close
  have hin : ∀ w ∈ (closingRecords f s i buf).2, Stored (image (closing1 g).trace) w.pos w.data := by
    intro w hw
    have h1 := (hc.placed hi).mem (List.mem_append_right _ hw)
    have hlo' := hi.lo
    exact kept _ _ (hc.stored hi (Or.inr hw)) h1.2 (Or.inr (by omega))
  -- the directory
  have hkl : (((dirKey path).enc packedNow).length : Int) = dirKeyLen path :=
    (Key.at_enc_length path [] (b! "TFile") 1 (dirNameLen path + 60) 100 0
      (dirPayload path (createdDir path))).trans (Int.sub_zero _)
  have hnl : ((encStr path ++ encStr []).length : Int) = dirNameLen path := by
    unfold dirNameLen
    rw [tstringSizeof_eq, tstringSizeof_eq, List.length_append, Int.natCast_add]
  have hdir : Stored (image (closing1 g).trace) 100 ((dirKey path).enc packedNow ++ (encStr path ++ (encStr [] ++
      (closedDir g).enc packedNow packedNow))) := by
    have h0 := hc.stored_dir hi
    rw [← List.append_assoc (encStr path), ← List.append_assoc] at h0 ⊢
    rw [Stored.append] at h0 ⊢
    refine ⟨kept _ _ h0.1 ?_ (Or.inl ?_), ?_⟩
    · rw [List.length_append, Int.natCast_add, hkl, hnl]; omega
    · rw [List.length_append, Int.natCast_add, hkl, hnl]; omega
    · have e : 100 + ((dirKey path).enc packedNow ++ (encStr path ++ encStr [])).length = (dirWrite g).pos := by
        have h1 := hdw.1
        have : (((dirKey path).enc packedNow ++ (encStr path ++ encStr [])).length : Int) =
            dirKeyLen path + dirNameLen path := by rw [List.length_append, Int.natCast_add, hkl, hnl]
        omega
      rw [e]
      exact dirw
  have hrange : (closedDir g).InRange := by
    have hbig : (closedDir g).isBig = false := ha.good.dirBig
    have e2 : InSeek false = InI 4 := rfl
    unfold Dir.InRange
    rw [hbig, e2]
    refine ⟨?_, ?_, ?_, ?_, ?_, ?_, c6⟩
    · show InI 2 g.dir.rvers; rw [c7]; decide
    · show InI 4 (kl g.dir.name g.dir.title (b! "TDirectory") + keysLen g.dir)
      rw [n3, n4]
      exact inI4_abs (by omega) (by omega)
    · show InI 4 g.dir.nBytesName
      rw [c5]
      exact inI4_abs (by omega) (by omega)
    · show InI 4 g.dir.seekDir; rw [n5]; decide
    · show InI 4 g.dir.seekParent; rw [c8]; decide
    · show InI 4 g.header.end_
      exact inI4_abs (by omega) (by omega)
  have r3 := open_dir_of (h := f'.header) (by rw [hh]; rfl) (by rw [hh]; rfl) (by rw [hh]; rfl) hb (by omega) hlen
    (by show g.dir.nBytesName = _; exact c5) hdw.2 hrange hu hdir
  rw [if_neg (by omega)] at r3
  have r4 : whenPositive f'.header.seekFree (readFreeSegments dec (image (closing1 g).trace) f'.header) =
      .ok [⟨f'.header.end_, kStartBigFile⟩] := by
    unfold whenPositive
    rw [if_pos (by omega)]
    exact hc.open_free_of hi hlen hin hb hu hp dec
  have r5 : whenPositive f'.header.seekInfo (readStreamerInfo dec (fuel + 3) (image (closing1 g).trace) f'.header) =
      .ok (s.map StreamerInfo.expected).reverse := by
    unfold whenPositive
    rw [if_pos (by omega)]
    exact hc.open_infos_of he hi hlen hin hko had hb hsmall hs dec fuel
  have hkst : Stored (image (closing1 g).trace) (g.header.end_ + kl path [] (b! "TDirectory")).toNat (keysBytes g.dir) := by
    have := new ⟨((keysKey g g.dir).seekKey + (keysKey g g.dir).keyLen).toNat, (keysKey g g.dir).buffer⟩
      (Or.inr (List.mem_cons_of_mem _ (List.mem_singleton.2 rfl)))
    have e : (keysKey g g.dir).keyLen = kl path [] (b! "TDirectory") := by
      show kl g.dir.name g.dir.title _ = _
      rw [n3, n4]
    rw [e] at this
    exact this
  have hlen2 := hkst.le (by
    intro h
    have := congrArg List.length h
    have h4 : (([] : List Byte).length : Int) = 0 := rfl
    omega)
  have r6 := open_keys_of (d := { (closedDir g).afterRead packedNow packedNow with
      className := b! "TFile", name := path }) n3 n4 n5 (by omega) hroom (by omega) (Int.le_of_eq hkb) ha.few_keys hu hp
    (fun k hk' => (ha.keys k hk').wrapped_inRange ha.good.hi (hk k hk').2) (fun w hw => new w (Or.inr hw)) rfl
    (by
      show kl g.dir.name g.dir.title _ + _ = _
      rw [n3, n4])
  rw [KeysFit.wrapped ha.keys hk] at r6
  unfold openFile
  rw [Res.bind_ok r1, Res.bind_ok r2, Res.bind_ok r3, Res.bind_ok r4, Res.bind_ok r5, Res.bind_ok r6]
  rfl

end

end Verif
