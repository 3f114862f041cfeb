import Verif.Props.Reopen
import Verif.Lemmas.RootFiles
import Verif.Spec.Walk
namespace Verif

theorem Pairs.append {α β : Type} {R : α → β → Prop} {as as' : List α} {bs bs' : List β}
    (h : Pairs R as bs) (h' : Pairs R as' bs') : Pairs R (as ++ as') (bs ++ bs') := by
  induction h with
  | nil => exact h'
  | cons h _ ih => exact .cons h ih

theorem Pairs.map_right {α β γ : Type} {R : α → β → Prop} {S : α → γ → Prop} {g : β → γ} {as : List α}
    {bs : List β} (h : Pairs R as bs) (hg : ∀ a, ∀ b ∈ bs, R a b → S a (g b)) : Pairs S as (bs.map g) := by
  induction h with
  | nil => exact .nil
  | cons h _ ih =>
    exact .cons (hg _ _ (List.mem_cons_self ..) h) (ih fun a b hb => hg a b (List.mem_cons_of_mem _ hb))

theorem Pairs.map_eq {α β γ : Type} {R : α → β → Prop} {u : α → γ} {v : β → γ} {as : List α} {bs : List β}
    (h : Pairs R as bs) (hg : ∀ a b, R a b → v b = u a) : bs.map v = as.map u := by
  induction h with
  | nil => rfl
  | cons h _ ih => simp only [List.map_cons]; rw [ih, hg _ _ h]

theorem Pairs.length_eq {α β : Type} {R : α → β → Prop} {as : List α} {bs : List β} (h : Pairs R as bs) :
    as.length = bs.length := by
  induction h with
  | nil => rfl
  | cons _ _ ih => simp only [List.length_cons, ih]

theorem Pairs.last {α β : Type} {R : α → β → Prop} {as : List α} {bs : List β} (h : Pairs R as bs) {a : α}
    (ha : as.getLast? = some a) : ∃ b, bs.getLast? = some b ∧ R a b := by
  induction h with
  | nil => cases ha
  | @cons a0 b0 as bs h hs ih =>
    cases hs with
    | nil => cases ha; exact ⟨b0, rfl, h⟩
    | cons h1 hs1 =>
      obtain ⟨b, hb, hr⟩ := ih (by simpa [List.getLast?_cons_cons] using ha)
      exact ⟨b, by simpa [List.getLast?_cons_cons] using hb, hr⟩

theorem Walk.append {file : List Byte} {a b c : Int} {rs rs' : List FileRecord} (h : Walk file a rs b)
    (h' : Walk file b rs' c) : Walk file a (rs ++ rs') c := by
  induction h with
  | done => exact h'
  | step h1 h2 _ ih => exact .step h1 h2 (ih h')

/-- Keys of records that follow each other. -/
inductive Tiles : Int → List Key → Int → Prop
  | nil {pos : Int} : Tiles pos [] pos
  | cons {pos last : Int} {k : Key} {ks : List Key} : k.seekKey = pos → 0 ≤ k.nBytes → Tiles (pos + k.nBytes) ks last →
      Tiles pos (k :: ks) last

theorem Tiles.append {a b c : Int} {ks ks' : List Key} (h : Tiles a ks b) (h' : Tiles b ks' c) :
    Tiles a (ks ++ ks') c := by
  induction h with
  | nil => exact h'
  | cons h1 h2 _ ih => exact .cons h1 h2 (ih h')

theorem Tiles.le {a b : Int} {ks : List Key} (h : Tiles a ks b) : a ≤ b := by
  induction h with
  | nil => omega
  | cons h1 h2 _ ih => omega

theorem Tiles.mem {a b : Int} {ks : List Key} (h : Tiles a ks b) {k : Key} (hk : k ∈ ks) :
    a ≤ k.seekKey ∧ k.seekKey + k.nBytes ≤ b := by
  induction h with
  | nil => cases hk
  | cons h1 h2 h3 ih =>
    rcases List.mem_cons.1 hk with rfl | hk
    · have := h3.le; omega
    · have := ih hk; omega

/-- A record behind the directory. -/
structure RecordOk (f : FileW) (k : Key) : Prop where
  form : k = Key.at k.name k.title k.cls k.cycle k.buffer.length (kl k.name k.title k.cls) k.seekKey
    100 false k.buffer
  head : ∃ rec, k.enc packedNow <+: rec ∧ (⟨k.seekKey.toNat, rec⟩ : DiskWrite) ∈ f.trace
  body : (⟨(k.seekKey + k.keyLen).toNat, k.buffer⟩ : DiskWrite) ∈ f.trace

/-- The record of an item, its object being the buffer of the key. -/
def StoredItem.IsKey (i : StoredItem) (k : Key) : Prop :=
  k.cls = i.cls ∧ k.name = i.name ∧ k.title = i.title ∧ i.bytes k.keyLen k.buffer

/-- The records of an open file. -/
structure RecordsOk (path : Str) (f : FileW) (is : List StoredItem) (ks : List Key) : Prop where
  tiles : Tiles (dirPos path + 60) ks f.header.end_
  ok : ∀ k ∈ ks, RecordOk f k
  items : Pairs StoredItem.IsKey is ks
  listed : ∀ k ∈ f.dir.keys, k ∈ ks

theorem storedItems_snoc (env : Env) (f : FileW) (ops : List Op) (op : Op) :
    storedItems env f (ops ++ [op]) = storedItems env f ops ++
      op.items env (ops.foldl (fun f op => (op.run env f).2) f) := by
  induction ops generalizing f with
  | nil => simp [storedItems]
  | cons o os ih => simp only [List.cons_append, storedItems, ih, List.foldl_cons, List.append_assoc]

theorem RecordOk.mono {f f' : FileW} {k : Key} (h : RecordOk f k) (ht : ∀ w ∈ f.trace, w ∈ f'.trace) : RecordOk f' k := by
  obtain ⟨rec, h1, h2⟩ := h.head
  exact ⟨h.form, ⟨rec, h1, ht _ h2⟩, ht _ h.body⟩

theorem RecordsOk.same {path : Str} {f f' : FileW} {is : List StoredItem} {ks : List Key} (h : RecordsOk path f is ks)
    (hs : f' = { f with sinfos := f'.sinfos, ids := f'.ids }) : RecordsOk path f' is ks := by
  have h1 : f'.header = f.header := by rw [hs]
  have h2 : f'.trace = f.trace := by rw [hs]
  have h3 : f'.dir = f.dir := by rw [hs]
  exact ⟨by rw [h1]; exact h.tiles, fun k hk => (h.ok k hk).mono (by rw [h2]; exact fun _ h => h), h.items,
    by rw [h3]; exact h.listed⟩

theorem RecordsOk.add {path : Str} {f f' : FileW} {is : List StoredItem} {ks : List Key} (h : RecordsOk path f is ks)
    {i : StoredItem} {k : Key} (hseek : k.seekKey = f.header.end_) (hpos : 0 ≤ k.nBytes)
    (hend : f'.header.end_ = f.header.end_ + k.nBytes) (ht : ∃ ws, f'.trace = f.trace ++ ws) (hk : RecordOk f' k)
    (hi : i.IsKey k) (hd : ∀ q ∈ f'.dir.keys, q ∈ f.dir.keys ∨ q = k) : RecordsOk path f' (is ++ [i]) (ks ++ [k]) := by
  obtain ⟨ws, ht⟩ := ht
  refine ⟨h.tiles.append (.cons hseek hpos (by rw [hend]; exact .nil)), fun q hq => ?_, h.items.append (.cons hi .nil),
    fun q hq => ?_⟩
  · rcases List.mem_append.1 hq with hq | hq
    · exact (h.ok q hq).mono (by rw [ht]; exact fun _ h => List.mem_append_left _ h)
    · rw [List.mem_singleton.1 hq]; exact hk
  · rcases hd q hq with hq | rfl
    · exact List.mem_append_left _ (h.listed q hq)
    · exact List.mem_append_right _ (List.mem_singleton.2 rfl)

theorem step_records {env : Env} {path : Str} {op : Op} {r : Res Unit} {f f' : FileW} (hi : Inv path f)
    (h : op.run env f = (r, f')) (hr : r ≠ .error .panic) (hb : f'.Below2GB) {is : List StoredItem} {ks : List Key}
    (hk : RecordsOk path f is ks) : ∃ ks', RecordsOk path f' (is ++ op.items env f) ks' := by
  cases op with
  | put name obj =>
    rcases r with (e | e) | u
    · refine ⟨ks, ?_⟩
      have : (Op.put name obj).items env f = [] := by unfold Op.items; rw [h]
      rw [this, List.append_nil]
      rcases put_err hi.good h with rfl | ha
      · exact hk
      · exact hk.same ha.same
    · exact absurd rfl hr
    · obtain ⟨-, c, m, w, k, h1, h2, h3, h4, ht, hp⟩ := put_inv hi h hb
      have : (Op.put name obj).items env f = [⟨obj.cls, storedName name obj, obj.title, fun keyLen bs =>
          ∃ n w, obj.marshal (WBuffer.new keyLen.toNat) = .ok (n, w) ∧ w.p = bs⟩] := by unfold Op.items; rw [h]
      rw [this]
      have h26 : 26 ≤ kl (putName name obj) obj.title obj.cls := (keyLenFor_ge _ _ _ false false).1
      obtain ⟨-, c', f1, m', w', -, ha, hm, -, -, he⟩ := put_ok hi.good h
      rw [hi.keyLenFor] at hm
      have hww : w' = w := by rw [hm] at h2; injection h2 with h2; injection h2
      subst hww
      refine ⟨ks ++ [k], hk.add (k := k) (by rw [h3]; rfl) ?_ ?_ ⟨_, ht⟩ ⟨?_, ⟨_, List.prefix_rfl, ?_⟩, ?_⟩ ?_ ?_⟩
      · rw [h3]; show 0 ≤ kl (putName name obj) obj.title obj.cls + (w'.p.length : Int); omega
      · have hlen : (w'.p.length : Int) ≤ kStartBigFile := by
          have := hb.data ⟨(k.seekKey + k.keyLen).toNat, k.buffer⟩ (by
            rw [ht]; exact List.mem_append_right _ (List.mem_cons_of_mem _ (List.mem_singleton.2 rfl)))
          rw [h3] at this
          simp only [Key.at, kStartBigFile] at *
          omega
        have hh : f1.header = f.header := by rw [ha.same]
        rw [he, h3]
        show f1.header.end_ + (f.keyLenFor (putName name obj) obj.title obj.cls + asI 4 w'.p.length) =
          f.header.end_ + (kl (putName name obj) obj.title obj.cls + w'.p.length)
        rw [hh, hi.keyLenFor, asI4_nat hlen]
      · rw [h3]; rfl
      · rw [ht]; exact List.mem_append_right _ (List.mem_cons_self ..)
      · rw [ht]; exact List.mem_append_right _ (List.mem_cons_of_mem _ (List.mem_singleton.2 rfl))
      · rw [h3]; exact ⟨rfl, rfl, rfl, m, w', h2, rfl⟩
      · intro q hq
        rw [h4] at hq
        rcases List.mem_append.1 hq with hq | hq
        · exact Or.inl hq
        · exact Or.inr (List.mem_singleton.1 hq)
  | basket b =>
    simp only [Op.run] at h
    generalize hw : b.writeToFile f = x at h
    obtain ⟨(e | e) | ⟨b', n, m⟩, f1⟩ := x
    · exact absurd hw (WBasket.writeToFile_err hi.good)
    · cases h; exact absurd rfl hr
    · cases h
      obtain ⟨-, w, hpay, hkey, hf, -, -, -, hp⟩ := basket_inv hi hw hb
      have : (Op.basket b).items env f = [⟨b! "TBasket", b.basket.key.name, b.basket.key.title, fun _ bs =>
          b.wbuf.c = b.wbuf.p.length → b.wbuf.p <+: bs⟩] := by unfold Op.items; simp only [Op.run, hw]
      rw [this]
      refine ⟨ks ++ [b'.basket.key], hk.add (k := b'.basket.key) (by rw [hkey]; rfl) ?_ ?_ ⟨_, by rw [hf]; rfl⟩
        ⟨?_, ⟨_, List.prefix_append _ b'.basket.tail, ?_⟩, ?_⟩ ?_ ?_⟩
      · have h26 : 26 ≤ kl b.basket.key.name b.basket.key.title (b! "TBasket") := (keyLenFor_ge _ _ _ false false).1
        rw [hkey]; show 0 ≤ kl b.basket.key.name b.basket.key.title (b! "TBasket") + (w.p.length : Int); omega
      · rw [hf]; unfold afterBasket; rw [hkey]; rfl
      · rw [hkey]; rfl
      · rw [hf]; exact List.mem_append_right _ (List.mem_cons_self ..)
      · rw [hf]; exact List.mem_append_right _ (List.mem_cons_of_mem _ (List.mem_singleton.2 rfl))
      · rw [hkey]
        refine ⟨rfl, rfl, rfl, fun hwf => ?_⟩
        show b.wbuf.p <+: w.p
        rw [hpay.bytes hwf]
        exact List.prefix_append ..
      · intro q hq
        rw [hf] at hq
        exact Or.inl hq
  | register si =>
    refine ⟨ks, ?_⟩
    have : (Op.register si).items env f = [] := by unfold Op.items; split <;> first | rfl | simp_all
    rw [this, List.append_nil]
    simp only [Op.run] at h
    rw [registerInfo_eq] at h
    cases h
    exact hk.same rfl

theorem runs_records {env : Env} {path : Str} {ops : List Op} {f0 f : FileW} (hi : Inv path f0)
    (h0 : RecordsOk path f0 [] []) (h : Runs env f0 ops f) :
    ∃ ks, RecordsOk path f (storedItems env f0 ops) ks := by
  induction h with
  | nil => exact ⟨[], h0⟩
  | @snoc ops g1 op r g' h1 h2 h3 h4 ih =>
    obtain ⟨ks, hk⟩ := ih
    rw [storedItems_snoc, ← h1.end_eq]
    exact step_records (runs_inv hi h1) h2 h3 h4 hk

/-! ### In the file -/

/-- The record of a key in a file, its object being what is there. -/
def Key.recordIn (k : Key) (img : List Byte) : FileRecord :=
  ⟨k, packedNow, (img.drop (k.seekKey + k.nBytes - k.objLen).toNat).take k.objLen.toNat⟩

theorem Key.recordIn_in {img : List Byte} {n t c : Str} {cy len seek pdir : Int} {buf : List Byte} (h0 : 0 ≤ seek)
    (hl : 0 ≤ len) (hs : Stored img seek.toNat ((Key.at n t c cy len (kl n t c) seek pdir false buf).enc packedNow))
    (hend : seek + (kl n t c + len) ≤ img.length) (hb : seek + (kl n t c + len) ≤ 2000000000) :
    ((Key.at n t c cy len (kl n t c) seek pdir false buf).recordIn img).In img := by
  have h26 : 26 ≤ kl n t c := (keyLenFor_ge _ _ _ false false).1
  have he := Key.at_enc_length n t c cy len seek pdir buf
  have hx := extra_nonneg c
  have hobj : (((img.drop (seek + (kl n t c + len) - len).toNat).take len.toNat).length : Int) = len := by
    rw [List.length_take, List.length_drop]
    omega
  refine ⟨by rw [rootKey_eq]; exact hs, rfl, ⟨h0, ?_⟩, ⟨?_, ?_⟩, hobj.symm, List.take_prefix _ _, ?_, hend⟩
  · show InI 4 seek
    constructor <;> omega
  · show 0 < kl n t c + len
    omega
  · show InI 4 (kl n t c + len)
    constructor <;> omega
  · rw [rootKey_eq]
    show (((Key.at n t c cy len (kl n t c) seek pdir false buf).enc packedNow).length : Int) +
      ((img.drop (seek + (kl n t c + len) - len).toNat).take len.toNat).length ≤ kl n t c + len
    omega

theorem Key.recordIn_object {img : List Byte} {n t c : Str} {cy seek pdir : Int} {buf : List Byte}
    (hs : Stored img (seek + kl n t c).toNat buf) :
    ((Key.at n t c cy buf.length (kl n t c) seek pdir false buf).recordIn img).object = buf := by
  show (img.drop (seek + (kl n t c + buf.length) - buf.length).toNat).take (buf.length : Int).toNat = buf
  rw [show seek + (kl n t c + (buf.length : Int)) - buf.length = seek + kl n t c by omega, Int.toNat_natCast]
  exact (List.prefix_iff_eq_take.1 hs).symm

theorem Walk.of_tiles {img : List Byte} {a b : Int} {ks : List Key} (h : Tiles a ks b)
    (hk : ∀ k ∈ ks, (k.recordIn img).In img) : Walk img a (ks.map (·.recordIn img)) b := by
  induction h with
  | nil => exact .done
  | cons h1 h2 _ ih =>
    exact .step (hk _ (List.mem_cons_self ..)) h1 (ih fun k hk' => hk k (List.mem_cons_of_mem _ hk'))

/-- The records of the calls are in the file at any later time. -/
theorem RecordsOk.inFile {env : Env} {path : Str} {f g : FileW} {is : List StoredItem} {ks : List Key}
    (hk : RecordsOk path f is ks) (hi : Inv path f) (hl : Later env f g) (hlen : f.header.end_ ≤ (image g.trace).length)
    (hb : f.header.end_ ≤ 2000000000) : ∀ k ∈ ks, (k.recordIn (image g.trace)).In (image g.trace) ∧
      (k.recordIn (image g.trace)).object = k.buffer := by
  intro k hk'
  have hd := dirPos_ge path
  obtain ⟨hform, ⟨rec, hpre, hhead⟩, hbody⟩ := hk.ok k hk'
  obtain ⟨ht1, ht2⟩ := hk.tiles.mem hk'
  have h26 : 26 ≤ kl k.name k.title k.cls := (keyLenFor_ge _ _ _ false false).1
  have hkl : k.keyLen = kl k.name k.title k.cls := congrArg Key.keyLen hform
  have hnb : k.nBytes = kl k.name k.title k.cls + k.buffer.length := congrArg Key.nBytes hform
  have s1 := Later.stored hi hl hhead (by show dirPos path + 60 ≤ ((k.seekKey.toNat : Nat) : Int); omega)
  have s2 := Later.stored hi hl hbody (by
    show dirPos path + 60 ≤ (((k.seekKey + k.keyLen).toNat : Nat) : Int); omega)
  have s1' : Stored (image g.trace) k.seekKey.toNat (k.enc packedNow) := List.IsPrefix.trans hpre s1
  rw [hkl] at s2
  generalize hsk : k.seekKey = seek at *
  generalize hbf : k.buffer = bs at *
  generalize hna : k.name = na at *
  generalize hti : k.title = ti at *
  generalize hcl : k.cls = cl at *
  rw [hform] at s1' ⊢
  exact ⟨Key.recordIn_in (by omega) (by omega) s1' (by omega) (by omega), Key.recordIn_object s2⟩

theorem Tiles.last {a b : Int} {ks : List Key} (h : Tiles a ks b) {k : Key} (hk : ks.getLast? = some k) :
    k.seekKey + k.nBytes = b := by
  induction h with
  | nil => cases hk
  | @cons pos last k0 ks h1 h2 h3 ih =>
    cases ks with
    | nil =>
      have e : k0 = k := by simpa using hk
      subst e
      cases h3
      omega
    | cons k1 ks => exact ih (by simpa [List.getLast?_cons_cons] using hk)

/-! ### The only walk -/

theorem bigEndian_inj {k : Nat} (hk : 0 < k) {a b : Int} (ha : InI k a) (hb : InI k b) (h : bigEndian k a = bigEndian k b) :
    a = b := by
  have h1 := congrArg (fun l => toSigned k (beNat l)) h
  simp only [bigEndian, beNat_beBytes_of_lt (wrapI_lt k _)] at h1
  rwa [toSigned_wrapI hk ha, toSigned_wrapI hk hb] at h1

theorem FileRecord.In.size_eq {file : List Byte} {r r' : FileRecord} (h : r.In file) (h' : r'.In file)
    (e : r.key.seekKey = r'.key.seekKey) : r.key.nBytes = r'.key.nBytes := by
  have first : ∀ {r : FileRecord}, r.In file → bigEndian 4 r.key.nBytes = (file.drop r.key.seekKey.toNat).take 4 := by
    intro r h
    have h1 : bigEndian 4 r.key.nBytes <+: file.drop r.key.seekKey.toNat := by
      refine List.IsPrefix.trans ?_ h.there
      exact List.prefix_append ..
    have h2 := List.prefix_iff_eq_take.1 h1
    rwa [show (bigEndian 4 r.key.nBytes).length = 4 from beBytes_length _ _] at h2
  exact bigEndian_inj (by decide) h.size.2 h'.size.2 ((first h).trans (by rw [e]; exact (first h').symm))

theorem Walk.le {file : List Byte} {a b : Int} {rs : List FileRecord} (h : Walk file a rs b) : a ≤ b := by
  induction h with
  | done => omega
  | step h1 h2 _ ih => have := h1.size.1; omega

theorem Walk.unique {file : List Byte} {a b : Int} {rs rs' : List FileRecord} (h : Walk file a rs b)
    (h' : Walk file a rs' b) : rs.map (fun r => (r.key.seekKey, r.key.nBytes)) =
      rs'.map (fun r => (r.key.seekKey, r.key.nBytes)) := by
  induction h generalizing rs' with
  | done =>
    cases h' with
    | done => rfl
    | step h1 h2 h3 => have := h1.size.1; have := h3.le; omega
  | step h1 h2 h3 ih =>
    cases h' with
    | done => have := h1.size.1; have := h3.le; omega
    | step k1 k2 k3 =>
      have e := h1.size_eq k1 (h2.trans k2.symm)
      rw [← e] at k3
      simp only [List.map_cons]
      rw [ih k3, e, h2, k2]

end Verif
