import Verif.Lemmas.Crash
import Verif.Spec.Big
/-
What stays the same however large a file gets, and what closing a file above 2 GB writes.
-/
namespace Verif

/-! ### What every call keeps -/

/-- The fields of the file that no call between creating and closing changes. -/
structure Lasting (path : Str) (f : FileW) : Prop where
  hdr : f.header = { createdHeader path with end_ := f.header.end_ }
  dir : f.dir = { createdDir path with keys := f.dir.keys }
  span : f.OneSpan
  keys : ∀ k ∈ f.dir.keys, 0 ≤ k.keyLen

theorem Lasting.comp {path : Str} {f : FileW} (h : Lasting path f) : f.header.compression = 1 := by
  rw [h.hdr]; rfl

/-- The call keeps `P`, whatever its outcome, and what it returns satisfies `Q`. -/
def Fs.Keeps {α : Type} (P : FileW → Prop) (m : Fs α) (Q : α → Prop) : Prop :=
  ∀ f, P f → P (m f).2 ∧ ∀ a, (m f).1 = .ok a → Q a

section
variable {P : FileW → Prop} {α β : Type}

theorem Fs.Keeps.bind {m : Fs α} {k : α → Fs β} {Q : α → Prop} {R : β → Prop} (h : Fs.Keeps P m Q)
    (hk : ∀ a, Q a → Fs.Keeps P (k a) R) : Fs.Keeps P (m >>= k) R := by
  intro f hf
  obtain ⟨h1, h2⟩ := h f hf
  rcases hm : m f with ⟨e | a, f1⟩
  · rw [Fs.bind_of_err hm]
    rw [hm] at h1
    exact ⟨h1, fun a ha => by cases ha⟩
  · rw [Fs.bind_of_ok hm]
    rw [hm] at h1 h2
    exact hk a (h2 a rfl) f1 h1

theorem Fs.Keeps.pure {a : α} {Q : α → Prop} (h : Q a) : Fs.Keeps P (Pure.pure a) Q :=
  fun _ hf => ⟨hf, fun b hb => by
    have : a = b := by injection hb
    exact this ▸ h⟩

theorem Fs.Keeps.get : Fs.Keeps P Fs.get P := fun f hf => ⟨hf, fun a ha => by
  have : f = a := by injection ha
  exact this ▸ hf⟩

theorem Fs.Keeps.panic {Q : α → Prop} : Fs.Keeps P Fs.panic Q :=
  fun _ hf => ⟨hf, fun _ h => by cases h⟩

theorem Fs.Keeps.fail {Q : α → Prop} {e : Err} : Fs.Keeps P (Fs.fail e) Q :=
  fun _ hf => ⟨hf, fun _ h => by cases h⟩

theorem Fs.Keeps.lift {r : Res α} : Fs.Keeps P (Fs.lift r) fun _ => True :=
  fun _ hf => ⟨hf, fun _ _ => trivial⟩

theorem Fs.Keeps.i32 {v : Int} : Fs.Keeps P (Fs.i32 v) fun x => x = v := by
  unfold Fs.i32
  split
  · exact .pure rfl
  · exact .panic

theorem Fs.Keeps.marshal {off : Int} {m : Wr Nat} : Fs.Keeps P (Fs.marshal off m) fun _ => True := by
  intro f hf
  unfold Fs.marshal
  split <;> exact ⟨hf, fun _ _ => trivial⟩

theorem Fs.Keeps.modify {g : FileW → FileW} (h : ∀ f, P f → P (g f)) :
    Fs.Keeps P (Fs.modify g) fun _ => True := fun f hf => ⟨h f hf, fun _ _ => trivial⟩

theorem Fs.Keeps.mono {m : Fs α} {Q R : α → Prop} (h : Fs.Keeps P m Q) (hq : ∀ a, Q a → R a) :
    Fs.Keeps P m R := fun f hf => ⟨(h f hf).1, fun a ha => hq a ((h f hf).2 a ha)⟩
end

section
variable {path : Str}

theorem Fs.Keeps.writeAt {data : List Byte} {pos : Int} :
    Fs.Keeps (Lasting path) (Fs.writeAt data pos) fun _ => True := by
  intro f hf
  unfold Fs.writeAt
  split
  · exact ⟨hf, fun _ _ => trivial⟩
  · exact ⟨⟨hf.hdr, hf.dir, hf.span, hf.keys⟩, fun _ _ => trivial⟩

theorem Fs.Keeps.setEnd {pos : Int} : Fs.Keeps (Lasting path) (Fs.setEnd pos) fun _ => True := by
  intro f hf
  rw [Fs.setEnd_eq hf.span]
  refine ⟨⟨?_, hf.dir, rfl, hf.keys⟩, fun _ _ => trivial⟩
  show ({ f.header with end_ := pos } : FileHeader) = { createdHeader path with end_ := pos }
  rw [hf.hdr]

theorem Lasting.sameBut {f : FileW} (h : Lasting path f) (s : List StreamerInfo) (n : Nat) :
    Lasting path { f with sinfos := s, ids := n } := ⟨h.hdr, h.dir, h.span, h.keys⟩

theorem Fs.Keeps.addStreamerInfo {si : StreamerInfo} :
    Fs.Keeps (Lasting path) (Verif.addStreamerInfo si) fun _ => True := by
  intro f hf
  rw [addStreamerInfo_eq]
  exact ⟨hf.sameBut _ _, fun _ _ => trivial⟩

theorem Fs.Keeps.dictionary {env : Env} {n : Str} {v : Int} :
    Fs.Keeps (Lasting path) (Fs.dictionary env n v) fun _ => True := by
  unfold Fs.dictionary
  refine Fs.Keeps.bind .get fun f _ => ?_
  refine Fs.Keeps.bind .lift fun x _ => ?_
  obtain ⟨si, m⟩ := x
  exact Fs.Keeps.bind (.modify fun f hf => hf.sameBut _ _) fun _ _ => .pure trivial

theorem FileW.keyLenFor_nonneg (f : FileW) (n t c : Str) : 0 ≤ f.keyLenFor n t c := by
  have := (keyLenFor_ge n t c f.dir.isBig f.isBig).1
  unfold FileW.keyLenFor
  omega

theorem Fs.Keeps.newFromBuffer {n t c : Str} {cy : Int} {buf : List Byte} :
    Fs.Keeps (Lasting path) (Key.newFromBuffer n t c cy buf) fun k => 0 ≤ k.keyLen := by
  unfold Key.newFromBuffer
  refine Fs.Keeps.bind .get fun f _ => ?_
  refine Fs.Keeps.bind .i32 fun kl hk => ?_
  refine Fs.Keeps.bind .i32 fun _ _ => ?_
  refine Fs.Keeps.bind .lift fun _ _ => ?_
  refine Fs.Keeps.bind .i32 fun _ _ => ?_
  refine Fs.Keeps.bind .setEnd fun _ _ => ?_
  refine .pure ?_
  show 0 ≤ kl
  rw [hk]; exact f.keyLenFor_nonneg _ _ _

theorem Fs.Keeps.newFromObject {n t c : Str} {m : Wr Nat} :
    Fs.Keeps (Lasting path) (Key.newFromObject n t c m) fun k => 0 ≤ k.keyLen := by
  unfold Key.newFromObject
  refine Fs.Keeps.bind .get fun f _ => ?_
  refine Fs.Keeps.bind .i32 fun kl hk => ?_
  refine Fs.Keeps.bind .marshal fun _ _ => ?_
  refine Fs.Keeps.bind .i32 fun _ _ => ?_
  refine Fs.Keeps.bind .lift fun _ _ => ?_
  refine Fs.Keeps.bind .i32 fun _ _ => ?_
  refine Fs.Keeps.bind .setEnd fun _ _ => ?_
  refine .pure ?_
  show 0 ≤ kl
  rw [hk]; exact f.keyLenFor_nonneg _ _ _

theorem Fs.Keeps.writeToFile {k : Key} :
    Fs.Keeps (Lasting path) k.writeToFile fun _ => True := by
  unfold Key.writeToFile
  split
  · exact .panic
  · refine Fs.Keeps.bind .marshal fun _ _ => ?_
    exact Fs.Keeps.bind .writeAt fun _ _ => .writeAt

theorem Fs.Keeps.put {env : Env} {name : Str} {obj : PutObj} :
    Fs.Keeps (Lasting path) (Verif.put env name obj) fun _ => True := by
  unfold Verif.put
  split
  · exact .fail
  refine Fs.Keeps.bind .get fun f _ => ?_
  generalize (if name = [] then obj.name else name) = nm
  cases lastCycle nm obj.cls f.dir.keys 0 with
  | none => exact .fail
  | some c =>
  have last : Fs.Keeps (Lasting path) (do
      let key ← Key.newFromObject nm obj.title obj.cls obj.marshal
      Key.writeToFile { key with cycle := asI 2 (c + 1) }
      Fs.modify fun f => { f with dir := { f.dir with
        keys := f.dir.keys ++ [{ key with cycle := asI 2 (c + 1) }] } } : Fs Unit)
      fun _ => True := by
    refine Fs.Keeps.bind .newFromObject fun k hk => ?_
    refine Fs.Keeps.bind .writeToFile fun _ _ => ?_
    refine .modify fun f hf => ⟨hf.hdr, ?_, hf.span, ?_⟩
    · have := hf.dir
      generalize ({ k with cycle := asI 2 (c + 1) } : Key) = k'
      show ({ f.dir with keys := f.dir.keys ++ [k'] } : Dir) =
        { createdDir path with keys := f.dir.keys ++ [k'] }
      generalize f.dir.keys ++ [k'] = ks
      rw [this]
    · intro k' hk'
      rcases List.mem_append.1 hk' with hk' | hk'
      · exact hf.keys _ hk'
      · rw [List.mem_singleton] at hk'
        subst hk'; exact hk
  by_cases hc : obj.cls ∈ coreTypes
  · simp only [hc, not_true_eq_false, if_false]
    exact last
  · simp only [hc, not_false_eq_true, if_true]
    refine Fs.Keeps.bind .dictionary fun _ _ => ?_
    exact Fs.Keeps.bind .addStreamerInfo fun _ _ => last

theorem Fs.Keeps.appendTable {bk : Basket} {w : WBuffer} :
    Fs.Keeps (Lasting path) (bk.appendTable w) fun _ => True := by
  unfold Basket.appendTable
  split
  · exact .pure trivial
  split
  · exact .panic
  refine Fs.Keeps.bind .i32 fun _ _ => ?_
  exact Fs.Keeps.bind .lift fun _ _ => .pure trivial

theorem Fs.Keeps.basket {b : WBasket} :
    Fs.Keeps (Lasting path) b.writeToFile fun _ => True := by
  unfold WBasket.writeToFile
  refine Fs.Keeps.bind .get fun f _ => ?_
  refine Fs.Keeps.bind .i32 fun _ _ => ?_
  refine Fs.Keeps.bind .appendTable fun _ _ => ?_
  refine Fs.Keeps.bind .newFromBuffer fun _ _ => ?_
  refine Fs.Keeps.bind .i32 fun _ _ => ?_
  refine Fs.Keeps.bind .marshal fun _ _ => ?_
  refine Fs.Keeps.bind .writeAt fun _ _ => ?_
  exact Fs.Keeps.bind .writeAt fun _ _ => .pure trivial

theorem Fs.Keeps.run {env : Env} {op : Op} :
    Fs.Keeps (Lasting path) (op.run env) fun _ => True := by
  cases op with
  | put name obj => exact .put
  | basket b =>
    intro f hf
    have := (Fs.Keeps.basket (b := b) f hf).1
    simp only [Op.run]
    rcases hb : b.writeToFile f with ⟨e | a, f1⟩ <;> rw [hb] at this <;> exact ⟨this, fun _ _ => trivial⟩
  | register si =>
    intro f hf
    simp only [Op.run, registerInfo_eq]
    exact ⟨hf.sameBut _ _, fun _ _ => trivial⟩

theorem calls_lasting {env : Env} {ops : List Op} {f g : FileW} (hf : Lasting path f)
    (h : Calls env f ops g) : Lasting path g := by
  induction h with
  | nil => exact hf
  | @snoc _ g op _ _ _ h2 _ ih =>
    have := (Fs.Keeps.run (env := env) (op := op) g ih).1
    rw [h2] at this
    exact this

theorem anySession_lasting {env : Env} {ops : List Op} {f : FileW}
    (h : AnySession env path ops f) : Lasting path f ∧ dirPos path + 60 ≤ kStartBigFile := by
  obtain ⟨ids, f0, h0, hb, h1⟩ := h
  obtain ⟨rfl, hlim⟩ := create_ok h0 hb.end_
  exact ⟨calls_lasting (f := createdFile path ids) ⟨rfl, rfl, rfl, fun _ hk => by cases hk⟩ h1, hlim⟩
end

/-! ### Closing -/

/-- Where a key and its payload are written. -/
theorem Key.writeToFile_trace {k : Key} {f f' : FileW} {u : Unit}
    (h : k.writeToFile f = (.ok u, f')) : ∃ a b, f' = { f with trace := f.trace ++
      [⟨k.seekKey.toNat, a⟩, ⟨(k.seekKey + k.keyLen).toNat, b⟩] } := by
  unfold Key.writeToFile at h
  split at h
  · cases h
  · obtain ⟨a, _, h0, h4⟩ := Fs.ok_bind.1 h
    obtain ⟨-, rfl⟩ := Fs.ok_marshal.1 h0
    obtain ⟨_, _, h0, h5⟩ := Fs.ok_bind.1 h4
    obtain ⟨-, rfl⟩ := Fs.ok_writeAt.1 h0
    obtain ⟨-, rfl⟩ := Fs.ok_writeAt.1 h5
    refine ⟨a, k.buffer, ?_⟩
    simp only [List.append_assoc, List.singleton_append]

/-- Writes all beyond a position. -/
def Beyond (pos : Int) (ws : List DiskWrite) : Prop := ∀ w ∈ ws, pos ≤ w.pos

theorem saveKeys_big {f f' : FileW} {d d' : Dir} (hs : f.OneSpan) (hk : ∀ k ∈ d.keys, 0 ≤ k.keyLen)
    (h : saveKeys d f = (.ok d', f')) :
    ∃ n, d' = { d with seekKeys := f.header.end_, nBytesKeys := n } ∧ InI 4 n ∧ 0 ≤ n ∧
      f' = { f.ended (f.header.end_ + n) with trace := f'.trace } := by
  have hnn : 0 ≤ (d.keys.map Key.keyLen).sum := by
    apply sum_nonneg
    intro x hx
    obtain ⟨k, hk', rfl⟩ := List.mem_map.1 hx
    exact hk k hk'
  unfold saveKeys at h
  rw [Fs.bind_of_ok (Fs.ok_get.2 ⟨rfl, rfl⟩)] at h
  obtain ⟨n, f1, h0, h1⟩ := Fs.ok_bind.1 h
  obtain ⟨hn, hf1⟩ := Fs.sum_ok h0
  have hpos : 0 < n := by rw [hn]; split <;> omega
  rw [hf1] at h1
  obtain ⟨k, f2, h2, h3⟩ := Fs.ok_bind.1 h1
  obtain ⟨i1, i2, hf2, hkk⟩ := Key.new_ok hs h2
  rw [if_pos hpos] at hf2 hkk
  obtain ⟨buf, f3, h4, h5⟩ := Fs.ok_bind.1 h3
  obtain ⟨-, rfl⟩ := Fs.ok_marshal.1 h4
  obtain ⟨_, f4, h6, h7⟩ := Fs.ok_bind.1 h5
  obtain ⟨rfl, rfl⟩ := Fs.ok_pure.1 h7
  have h8 := Key.writeToFile_same h6
  have := f.keyLenFor_nonneg d.name d.title (b! "TDirectory")
  refine ⟨f.keyLenFor d.name d.title (b! "TDirectory") + n, ?_, by rwa [Int.add_comm], by omega, ?_⟩
  · rw [hkk]; rfl
  · rw [h8, hf2]

theorem writeStreamerInfo_big {env : Env} {f f' : FileW} {u : Unit} (hs : f.OneSpan)
    (hc : f.header.compression = 1) (h : writeStreamerInfo env f = (.ok u, f')) :
    ∃ n ws, InI 4 n ∧ 0 ≤ n ∧ Beyond f.header.end_ ws ∧ f'.trace = f.trace ++ ws ∧ f'.dir = f.dir ∧
      f'.OneSpan ∧ f'.header = { f.header with end_ := f.header.end_ + n
                                               seekInfo := f.header.end_
                                               nBytesInfo := n } := by
  unfold writeStreamerInfo at h
  obtain ⟨_, f1, h0, h1⟩ := Fs.ok_bind.1 h
  have hs' : f1 = { f with sinfos := f1.sinfos, ids := f1.ids } := findDeepStreamer_same h0
  have hh : f1.header = f.header := by rw [hs']
  have hd : f1.dir = f.dir := by rw [hs']
  have ht : f1.trace = f.trace := by rw [hs']
  have hspan : f1.OneSpan := by rw [hs']; exact hs
  rw [Fs.bind_of_ok (Fs.ok_get.2 ⟨rfl, rfl⟩)] at h1
  split at h1
  · cases h1
  obtain ⟨k, f2, h2, h3⟩ := Fs.ok_bind.1 h1
  obtain ⟨-, -, hf2, hk⟩ := Key.new_ok hspan h2
  rw [if_neg (by decide)] at hf2
  subst hf2
  obtain ⟨buf, f3, h4, h5⟩ := Fs.ok_bind.1 h3
  obtain ⟨-, rfl⟩ := Fs.ok_marshal.1 h4
  obtain ⟨k2, f4, h6, h7⟩ := Fs.ok_bind.1 h5
  obtain ⟨i1, i2, rfl, hk2⟩ := Key.newFromBuffer_ok hspan (by rw [hh]; exact hc) h6
  rw [Fs.bind_of_ok (Fs.ok_modify.2 rfl : Fs.modify _ _ = (.ok (), _))] at h7
  have hnn : 0 ≤ k2.nBytes := by
    rcases Int.lt_or_le k2.nBytes 0 with hn | hn
    · rw [Key.writeToFile_neg hn (by rw [hk2]; rfl)] at h7
      cases h7
    · exact hn
  obtain ⟨a, b, h8⟩ := Key.writeToFile_trace h7
  have e1 : k2.seekKey = f.header.end_ := by rw [hk2, ← hh]; rfl
  have e2 : 0 ≤ k2.keyLen := by rw [hk2]; exact f2.keyLenFor_nonneg _ _ _
  have e3 : k2.nBytes = f2.keyLenFor infoName listTitle (b! "TList") + asI 4 buf.length := by
    rw [hk2]; rfl
  refine ⟨k2.nBytes, [⟨k2.seekKey.toNat, a⟩, ⟨(k2.seekKey + k2.keyLen).toNat, b⟩], ?_, hnn, ?_, ?_, ?_, ?_, ?_⟩
  · rw [e3]; exact i2
  · intro w hw
    simp only [List.mem_cons, List.not_mem_nil, or_false] at hw
    rcases hw with rfl | rfl
    · show _ ≤ ((k2.seekKey.toNat : Nat) : Int); omega
    · show _ ≤ (((k2.seekKey + k2.keyLen).toNat : Nat) : Int); omega
  · rw [h8, ← ht]; rfl
  · rw [h8, ← hd]; rfl
  · rw [h8]; rfl
  · rw [h8, e1, ← hh, e3]; rfl

theorem writeFreeSegments_big {f f' : FileW} {u : Unit} (hs : f.OneSpan)
    (h : writeFreeSegments f = (.ok u, f')) :
    ∃ n ws, InI 4 n ∧ 0 ≤ n ∧ Beyond f.header.end_ ws ∧ f'.trace = f.trace ++ ws ∧ f'.dir = f.dir ∧
      f'.OneSpan ∧ f'.header = { f.header with end_ := f.header.end_ + n
                                               seekFree := f.header.end_
                                               nBytesFree := n } := by
  unfold writeFreeSegments at h
  rw [Fs.bind_of_ok (Fs.ok_get.2 ⟨rfl, rfl⟩)] at h
  split at h
  · cases h
  obtain ⟨n, f1, h0, h1⟩ := Fs.ok_bind.1 h
  obtain ⟨hn, hf1⟩ := Fs.sum_ok h0
  have hn' : n = 10 := by
    rw [hn, show f.spans = _ from hs]; rfl
  subst hn'
  rw [hf1] at h1
  obtain ⟨k, f2, h2, h3⟩ := Fs.ok_bind.1 h1
  obtain ⟨i1, i2, hf2, hk⟩ := Key.new_ok hs h2
  rw [if_pos (by decide)] at hf2 hk
  split at h3
  · cases h3
  rw [Fs.bind_of_ok (Fs.ok_get.2 ⟨rfl, rfl⟩)] at h3
  split at h3
  · cases h3
  obtain ⟨buf, f3, h4, h5⟩ := Fs.ok_bind.1 h3
  obtain ⟨-, rfl⟩ := Fs.ok_marshal.1 h4
  split at h5
  · cases h5
  rw [Fs.bind_of_ok (Fs.ok_modify.2 rfl : Fs.modify _ _ = (.ok (), _))] at h5
  obtain ⟨a, b, h8⟩ := Key.writeToFile_trace h5
  have e1 : k.seekKey = f.header.end_ := by rw [hk]; rfl
  have e2 : 0 ≤ k.keyLen := by rw [hk]; exact f.keyLenFor_nonneg _ _ _
  have e3 : k.nBytes = f.keyLenFor f.dir.name f.dir.title (b! "TFile") + 10 := by rw [hk]; rfl
  have hnn := f.keyLenFor_nonneg f.dir.name f.dir.title (b! "TFile")
  refine ⟨k.nBytes, [⟨k.seekKey.toNat, a⟩, ⟨(k.seekKey + k.keyLen).toNat, b⟩], ?_, by omega, ?_, ?_, ?_, ?_, ?_⟩
  · rw [e3, Int.add_comm]; exact i2
  · intro w hw
    simp only [List.mem_cons, List.not_mem_nil, or_false] at hw
    rcases hw with rfl | rfl
    · show _ ≤ ((k.seekKey.toNat : Nat) : Int); omega
    · show _ ≤ (((k.seekKey + k.keyLen).toNat : Nat) : Int); omega
  · rw [h8, hf2]; rfl
  · rw [h8, hf2]; rfl
  · rw [h8, hf2]; rfl
  · rw [h8, e1, hf2, e3]; rfl

/-- The header of a file above 2 GB. -/
theorem writeHeader_big {f : FileW} (hs : f.spans.length = 1) (hb : f.header.begin_ = 100)
    (hw : f.header.wide = true) (hr : ({ f.header.oneFree with units := 8 } : FileHeader).InRange) :
    writeHeader f = (.ok (), { f with
      header := { f.header.oneFree with units := 8 }
      trace := f.trace ++ [⟨0, List.replicate 100 0⟩,
        ⟨0, ({ f.header.oneFree with units := 8 } : FileHeader).enc⟩] }) := by
  have h1 : asI 4 (f.spans.length : Int) = 1 := by rw [hs]; rfl
  have h2 : f.header.oneFree.adjusted = { f.header.oneFree with units := 8 } := by
    unfold FileHeader.adjusted
    have : f.header.oneFree.wide = true := hw
    rw [this]; rfl
  unfold writeHeader
  rw [Fs.bind_of_ok (f1 := { f with header := f.header.oneFree }) (a := ())
    (by rw [Fs.ok_modify, h1]; rfl)]
  rw [Fs.bind_of_ok (f1 := { f with header := { f.header.oneFree with units := 8 } }) (a := ())
    (by rw [Fs.ok_modify]; simp only [h2])]
  rw [Fs.bind_of_ok (Fs.ok_get.2 ⟨rfl, rfl⟩)]
  rw [Fs.bind_of_ok (Fs.marshal_writes (FileHeader.writes hr) _)]
  rw [Fs.bind_of_ok (Fs.ok_writeAt.2 ⟨by decide, rfl⟩ : Fs.writeAt _ _ _ = (.ok (), _))]
  rw [(Fs.ok_writeAt.2 ⟨by decide, rfl⟩ : Fs.writeAt _ _ _ = (.ok (), _))]
  have hb' : f.header.oneFree.begin_ = 100 := hb
  simp only [hb', List.append_assoc, List.singleton_append]
  rfl

/-- The final header is in range. -/
theorem header_big {path : Str} (hlim : dirPos path + 60 ≤ kStartBigFile) {E n n2 n3 : Int}
    {h : FileHeader} (he : h = { createdHeader path with
      end_ := E + n + n2 + n3, seekInfo := E + n, nBytesInfo := n2,
      seekFree := E + n + n2, nBytesFree := n3 }) (h1 : 2 ^ 31 ≤ E) (h2 : E < 2 ^ 32)
    (a2 : InI 4 n) (a3 : 0 ≤ n) (b1 : InI 4 n2) (b2 : 0 ≤ n2) (c1 : InI 4 n3) (c2 : 0 ≤ n3) :
    h.wide = true ∧ ({ h.oneFree with units := 8 } : FileHeader).InRange := by
  have hdp' : dirPos path = 100 + (dirKeyLen path + dirNameLen path) := rfl
  have hk26 : 26 ≤ dirKeyLen path := (keyLenFor_ge path [] (b! "TFile") false false).1
  have hn0 : 0 < dirNameLen path := by
    have h1 := tstringSizeof_pos path
    have h3 : tstringSizeof [] = 1 := rfl
    unfold dirNameLen; omega
  have hlim' : dirPos path + 60 ≤ 2000000000 := hlim
  have i1 := a2.2
  have i2 := b1.2
  have i3 := c1.2
  constructor
  · have : kStartBigFile < E + n + n2 + n3 := by unfold kStartBigFile; omega
    rw [he]
    simp only [FileHeader.wide, FileHeader.isBig, this, decide_true, Bool.true_or]
  · rw [he]
    refine ⟨(by decide : (0 : Int) ≤ 63002), (by decide : (63002 : Int) < 1000000),
      (by decide : InI 4 100), ?_, ?_, c1, (by decide : InI 4 1), ?_, (by decide : 8 < 256),
      (by decide : InI 4 1), ?_, b1, by rfl, fun _ => (by decide : (0 : Int) < 63002), ?_, ?_, ?_⟩
    · show InI 8 (E + n + n2 + n3); constructor <;> omega
    · show InI 8 (E + n + n2); constructor <;> omega
    · show InI 4 (dirKeyLen path + dirNameLen path); constructor <;> omega
    · show InI 8 (E + n); constructor <;> omega
    · show 0 ≤ E + n + n2 + n3; omega
    · show 0 ≤ E + n + n2; omega
    · show 0 ≤ E + n; omega

/-- What `close` leaves of a file whose end is beyond 2 GB: the header of the new layout, and the
directory record. -/
theorem close_big {env : Env} {path : Str} {f f' : FileW} {u : Unit} (hi : Lasting path f)
    (hlim : dirPos path + 60 ≤ kStartBigFile) (h1 : 2 ^ 31 ≤ f.header.end_)
    (h2 : f.header.end_ < 2 ^ 32) (h : closeFile env f = (.ok u, f')) :
    ∃ (hd : FileHeader) (n : Int), hd.InRange ∧ hd.begin_ = 100 ∧
      hd.nBytesName = dirKeyLen path + dirNameLen path ∧ hd.version = rversRoot ∧ InI 4 n ∧
      Stored (image f'.trace) 0 hd.enc ∧
      Stored (image f'.trace) (dirPos path).toNat
        (({ createdDir path with seekKeys := f.header.end_, nBytesKeys := n } : Dir).enc
          packedNow packedNow) := by
  have hdp := dirPos_ge path
  have hdp' : dirPos path = 100 + (dirKeyLen path + dirNameLen path) := rfl
  have hk26 : 26 ≤ dirKeyLen path := (keyLenFor_ge path [] (b! "TFile") false false).1
  have hn0 : 0 < dirNameLen path := by
    have h1 := tstringSizeof_pos path
    have h3 : tstringSizeof [] = 1 := rfl
    unfold dirNameLen; omega
  have hlim' : dirPos path + 60 ≤ 2000000000 := hlim
  unfold closeFile at h
  rw [Fs.bind_of_ok (Fs.ok_get.2 ⟨rfl, rfl⟩)] at h
  obtain ⟨d1, f1, g0, g1⟩ := Fs.ok_bind.1 h
  obtain ⟨n, a1, a2, a3, a4⟩ := saveKeys_big hi.span hi.keys g0
  have q1 : d1.ctime = dateNow := by rw [a1, hi.dir]; rfl
  have q2 : d1.seekDir + d1.nBytesName = dirPos path := by rw [a1, hi.dir, hdp']; rfl
  rw [Fs.bind_of_ok (writeDirHeader_eq f1 q1 (by omega)),
    Fs.bind_of_ok (Fs.ok_modify.2 rfl : Fs.modify _ _ = (.ok (), _)), q2] at g1
  have q3 : ({ d1 with mtime := dateNow } : Dir).enc packedNow packedNow =
      ({ createdDir path with seekKeys := f.header.end_, nBytesKeys := n } : Dir).enc packedNow packedNow := by
    rw [a1, hi.dir]; rfl
  rw [q3] at g1
  generalize hbs : ({ createdDir path with seekKeys := f.header.end_, nBytesKeys := n } : Dir).enc
    packedNow packedNow = bs at *
  have hlen : bs.length = 48 := by
    rw [← hbs]
    exact Dir.enc_length (d := ({ createdDir path with seekKeys := f.header.end_, nBytesKeys := n } : Dir)) rfl packedNow packedNow
  have hh1 : f1.header = { f.header with end_ := f.header.end_ + n } := by rw [a4]; rfl
  obtain ⟨_, f2, g2, g3⟩ := Fs.ok_bind.1 g1
  obtain ⟨n2, ws2, b1, b2, b3, b4, b5, b6, b7⟩ := writeStreamerInfo_big (by rw [a4]; exact FileW.ended_oneSpan _ _)
    (by show f1.header.compression = 1; rw [hh1]; exact hi.comp) g2
  obtain ⟨_, f3, g4, g5⟩ := Fs.ok_bind.1 g3
  obtain ⟨n3, ws3, c1, c2, c3, c4, c5, c6, c7⟩ := writeFreeSegments_big b6 g4
  have b3 : Beyond f1.header.end_ ws2 := b3
  have b7 : f2.header = { f1.header with end_ := f1.header.end_ + n2, seekInfo := f1.header.end_, nBytesInfo := n2 } := b7
  have b4 : f2.trace = f1.trace ++ [⟨(dirPos path).toNat, bs⟩] ++ ws2 := b4
  have e1 : f1.header.end_ = f.header.end_ + n := by rw [hh1]
  have e2 : f2.header.end_ = f.header.end_ + n + n2 := by rw [b7]; simp only [e1]
  have hfin : f3.header = { createdHeader path with
      end_ := f.header.end_ + n + n2 + n3, seekInfo := f.header.end_ + n, nBytesInfo := n2,
      seekFree := f.header.end_ + n + n2, nBytesFree := n3 } := by
    rw [c7, e2, b7, e1, hh1, hi.hdr]
  obtain ⟨hw, hr⟩ := header_big hlim hfin h1 h2 a2 a3 b1 b2 c1 c2
  rw [writeHeader_big (by rw [show f3.spans = _ from c6]; rfl) (by rw [hfin]; rfl) hw hr] at g5
  have ht : f'.trace = f3.trace ++ [⟨0, List.replicate 100 0⟩,
      ⟨0, ({ f3.header.oneFree with units := 8 } : FileHeader).enc⟩] := by
    injection g5 with _ g5
    rw [← g5]
  have hl := FileHeader.enc_length hr
  have hl : ({ f3.header.oneFree with units := 8 } : FileHeader).enc.length ≤ 100 := by
    rw [hl]; split <;> omega
  refine ⟨{ f3.header.oneFree with units := 8 }, n, hr, ?_, ?_, ?_, a2, ?_, ?_⟩
  · rw [hfin]; rfl
  · rw [hfin]; rfl
  · rw [hfin]; rfl
  · rw [ht, show ∀ (a : List DiskWrite) x y, a ++ [x, y] = (a ++ [x]) ++ y :: [] by simp]
    exact Stored.image (w := ⟨0, _⟩) (by simp)
  · show Stored _ _ (({ createdDir path with seekKeys := f.header.end_, nBytesKeys := n } : Dir).enc
      packedNow packedNow)
    rw [hbs, ht, c4, b4, show ∀ (a : List DiskWrite) x b c d, a ++ [x] ++ b ++ c ++ d = a ++ x :: (b ++ c ++ d) by simp]
    refine Stored.image (w := ⟨(dirPos path).toNat, bs⟩) fun v hv => ?_
    rcases List.mem_append.1 hv with hv | hv
    · rcases List.mem_append.1 hv with hv | hv
      · have := b3 v hv; left; simp only [hlen]; omega
      · have := c3 v hv; left; simp only [hlen]; omega
    · right
      simp only [List.mem_cons, List.not_mem_nil, or_false] at hv
      rcases hv with rfl | rfl
      · simp only [List.length_replicate]; omega
      · have e0 : 100 ≤ (dirPos path).toNat := by omega
        show 0 + _ ≤ (dirPos path).toNat
        rw [Nat.zero_add]
        exact Nat.le_trans hl e0

/-- A position above 2 GB in the four bytes of a directory record comes back negative. -/
theorem Dir.enc_wrapped (d : Dir) (E : Int) (hb : d.isBig = false) (c m : Nat) :
    ({ d with seekKeys := E } : Dir).enc c m = ({ d with seekKeys := asI 4 E } : Dir).enc c m := by
  have h1 : ({ d with seekKeys := E } : Dir).isBig = false := hb
  have h2 : ({ d with seekKeys := asI 4 E } : Dir).isBig = false := hb
  have h3 : encSeek false E = encSeek false (asI 4 E) := by
    have : wrapI 4 E = wrapI 4 (asI 4 E) := by
      unfold asI toSigned wrapI
      split <;> omega
    show beBytes 4 _ = beBytes 4 _
    rw [this]
  unfold Dir.enc
  rw [h1, h2]
  simp only [h3]

theorem big_not_ok {path : Str} (hlim : dirPos path + 60 ≤ kStartBigFile) {img : List Byte}
    {hd : FileHeader} {E n : Int} (hr : hd.InRange) (hb : hd.begin_ = 100)
    (hnm : hd.nBytesName = dirKeyLen path + dirNameLen path) (hv : hd.version = rversRoot)
    (hn : InI 4 n) (h1 : 2 ^ 31 ≤ E) (h2 : E < 2 ^ 32) (hs : Stored img 0 hd.enc)
    (hk : Stored img (dirPos path).toNat
      (({ createdDir path with seekKeys := E, nBytesKeys := n } : Dir).enc packedNow packedNow))
    {dec : Decoders} {fuel : Nat} (r : FileR) : openFile dec fuel img ≠ .ok r := by
  intro hok
  obtain ⟨-, -, hd', d, g1, -, -, g4, g5⟩ := open_fields hok
  have hl := FileHeader.enc_length hr
  have he : hd' = hd := by
    obtain ⟨t, ht⟩ := hs
    have ht : hd.enc ++ t = img := ht
    have hle : hd.enc.length ≤ 76 := by rw [hl]; split <;> omega
    have e : img.take 76 = hd.enc ++ t.take (76 - hd.enc.length) := by
      rw [← ht, List.take_append, List.take_of_length_le hle]
    have := readWith_reads (off := 0) (FileHeader.reads hr) e
    rw [this] at g1
    injection g1 with g1
    exact g1.symm
  subst he
  obtain ⟨-, -, j3, d0, j4, j5⟩ := readDirInfo_starts g4
  have hdp : dirPos path = 100 + (dirKeyLen path + dirNameLen path) := rfl
  have hk26 : 26 ≤ dirKeyLen path := (keyLenFor_ge path [] (b! "TFile") false false).1
  have hn0 : 0 < dirNameLen path := by
    have h1 := tstringSizeof_pos path
    have h3 : tstringSizeof [] = 1 := rfl
    unfold dirNameLen; omega
  have hlim' : dirPos path + 60 ≤ 2000000000 := hlim
  have a1 : asU64 hd'.nBytesName = (dirKeyLen path + dirNameLen path).toNat := by
    rw [hnm]
    exact asU64_of (x := dirKeyLen path + dirNameLen path) (by omega)
      (by show _ ≤ (2000000000 : Int); omega)
  have a2 : asU64 (dirRecordSize hd'.version) = 60 := by rw [hv]; rfl
  rw [a1, a2, hb] at j3 j4
  rw [hnm] at j4
  have hw : asI 4 E = E - 2 ^ 32 := by
    unfold asI toSigned wrapI
    split <;> omega
  rw [Dir.enc_wrapped { createdDir path with nBytesKeys := n } E rfl] at hk
  generalize hD : ({ createdDir path with seekKeys := asI 4 E, nBytesKeys := n } : Dir) = D at hk
  have hrange : D.InRange := by
    rw [← hD]
    refine ⟨(by decide : InI 2 5), hn, ?_, (by decide : InI 4 100),
      (by decide : InI 4 0), ?_, by rfl⟩
    · show InI 4 (dirKeyLen path + dirNameLen path)
      exact inI4_of_small (by omega) (by show _ ≤ (2000000000 : Int); omega)
    · show InI 4 (asI 4 E)
      exact asI_inI (by decide) E
  have hdl : (D.enc packedNow packedNow).length = 48 := by
    rw [← hD]
    exact Dir.enc_length (d := ({ createdDir path with seekKeys := asI 4 E, nBytesKeys := n } : Dir)) rfl packedNow packedNow
  obtain ⟨t, ht⟩ := hk
  have e : ((img.drop (100 : Int).toNat).take ((dirKeyLen path + dirNameLen path).toNat + 60)).drop
      (dirKeyLen path + dirNameLen path).toNat = D.enc packedNow packedNow ++ t.take 12 := by
    have e1 : (100 : Int).toNat + (dirKeyLen path + dirNameLen path).toNat = (dirPos path).toNat := by omega
    rw [List.drop_take, List.drop_drop, e1, ← ht, Nat.add_sub_cancel_left, List.take_append,
      List.take_of_length_le (by omega), hdl]
  have := readWith_reads (off := 0) (Dir.reads hrange packedNow_lt packedNow_lt) e
  rw [this] at j4
  injection j4 with j4
  rw [j5, ← j4, ← hD] at g5
  have g5 : 0 < asI 4 E := g5
  omega

/-! ### Closing succeeds -/

theorem Fs.sum_eq {l : List Int} {acc : Int} (f : FileW) (hl : ∀ x ∈ l, 0 ≤ x) (h0 : 0 ≤ acc)
    (h : acc + l.sum ≤ 2000000000) : Fs.sum acc l f = (.ok (acc + l.sum), f) := by
  induction l generalizing acc with
  | nil => simp [Fs.sum, Fs.pure_eq]
  | cons x l ih =>
    have h1 := hl x (by simp)
    have h2 := sum_nonneg (l := l) fun y hy => hl y (by simp [hy])
    simp only [List.sum_cons] at h
    unfold Fs.sum
    rw [Fs.bind_of_ok (Fs.i32_eq (inI4_of_small (by omega) (by show _ ≤ (2000000000 : Int); omega)) f),
      ih (fun y hy => hl y (by simp [hy])) (by omega) (by omega)]
    simp only [List.sum_cons, Int.add_assoc]

theorem Key.new_eq {f : FileW} {n t c : Str} {len : Int} (hr : f.OneSpan) (hl : 0 < len)
    (h : len + f.keyLenFor n t c ≤ 2000000000) :
    Key.new n t c len f = (.ok (Key.at n t c 1 len (f.keyLenFor n t c) f.header.end_ f.dir.seekDir
      (f.ended (f.header.end_ + (len + f.keyLenFor n t c))).isBig []),
      f.ended (f.header.end_ + (len + f.keyLenFor n t c))) := by
  have h0 := f.keyLenFor_nonneg n t c
  unfold Key.new
  rw [Fs.bind_of_ok (Fs.ok_get.2 ⟨rfl, rfl⟩),
    Fs.bind_of_ok (Fs.i32_eq (inI4_of_small h0 (by show _ ≤ (2000000000 : Int); omega)) f),
    Fs.bind_of_ok (Fs.i32_eq (inI4_of_small (by omega) (by show _ ≤ (2000000000 : Int); omega)) f)]
  simp only [hl, if_true]
  rw [Fs.bind_of_ok (Fs.setEnd_eq hr _), Fs.bind_of_ok (Fs.ok_get.2 ⟨rfl, rfl⟩), Fs.pure_eq]
  simp only [Key.at, Int.add_comm len]
  rfl

theorem Key.at_writable_big {n t c : Str} {cy len seek pdir : Int} {buf : List Byte} {f : FileW}
    (hl : 0 ≤ len) (hs : 0 ≤ seek) (hk : f.keyLenFor n t c ≤ 2000000000) :
    (Key.at n t c cy len (f.keyLenFor n t c) seek pdir true buf).Writable := by
  have h0 := f.keyLenFor_nonneg n t c
  have := keyLenFor_ge n t c f.dir.isBig f.isBig
  unfold FileW.keyLenFor at *
  refine ⟨?_, hs, h0, fun _ => (by decide : (1000 : Int) ≤ 1004), ?_, ?_, ?_, rfl, rfl⟩
  · show 0 ≤ _ + len; omega
  all_goals (simp only [Key.at]; omega)

theorem saveKeys_runs {f : FileW} {d : Dir} (hs : f.OneSpan) (hb : kStartBigFile < f.header.end_)
    (hk : ∀ k ∈ d.keys, k.Writable) (hl : (d.keys.map Key.keyLen).sum ≤ 1000000)
    (hn : f.keyLenFor d.name d.title (b! "TDirectory") ≤ 1000000) :
    ∃ d' f', saveKeys d f = (.ok d', f') ∧ f'.sinfos = f.sinfos ∧ f'.dir = f.dir := by
  have hnn : ∀ x ∈ d.keys.map Key.keyLen, 0 ≤ x := by
    intro x hx
    obtain ⟨k, hk', rfl⟩ := List.mem_map.1 hx
    exact (hk k hk').keyLen
  have h0 := sum_nonneg hnn
  have hbig : f.isBig = true := by simp [FileW.isBig, FileHeader.isBig, hb]
  have hb' : 2000000000 < f.header.end_ := hb
  unfold saveKeys
  rw [Fs.bind_of_ok (Fs.ok_get.2 ⟨rfl, rfl⟩), hbig]
  simp only [if_true]
  have hkl := f.keyLenFor_nonneg d.name d.title (b! "TDirectory")
  generalize hN : 4 + 8 + (d.keys.map Key.keyLen).sum = N
  have h1 := Fs.sum_eq (acc := 4 + 8) f hnn (by decide) (by omega)
  rw [hN] at h1
  rw [Fs.bind_of_ok h1, Fs.bind_of_ok (Key.new_eq hs (by omega) (by omega)),
    Fs.bind_of_ok (Fs.marshal_writes (keys_writes hk) _)]
  have hbig2 : (f.ended (f.header.end_ + (N + f.keyLenFor d.name d.title (b! "TDirectory")))).isBig = true := by
    have : kStartBigFile < f.header.end_ + (N + f.keyLenFor d.name d.title (b! "TDirectory")) := by
      show 2000000000 < _; omega
    simp only [FileW.isBig, FileHeader.isBig, FileW.ended, this, decide_true]
  have hw := Key.at_writable_big (n := d.name) (t := d.title) (c := b! "TDirectory") (cy := 1) (len := N) (seek := f.header.end_)
    (pdir := f.dir.seekDir) (buf := keysBytes d) (f := f) (by omega) (by omega) (by omega)
  rw [hbig2]
  refine ⟨_, _, Fs.bind_of_ok (Key.writeToFile_eq hw _), rfl, rfl⟩

/-- The size of the key of the streamer records above 2 GB. -/
theorem infoKeyLen_big {f : FileW} (h : f.isBig = true) :
    f.keyLenFor infoName listTitle (b! "TList") = 72 := by
  unfold FileW.keyLenFor; rw [h]; cases f.dir.isBig <;> rfl

/-- The stored list of no streamer records. -/
def noInfos : List Byte := match TList.marshal TObject.default none [] (WBuffer.new 72) with
  | .ok (_, w) => w.p
  | .error _ => []

theorem noInfos_eq : ∃ n w, TList.marshal TObject.default none [] (WBuffer.new 72) = .ok (n, w) ∧
    w.p = noInfos := ⟨_, _, rfl, rfl⟩

theorem writeStreamerInfo_runs {env : Env} {f : FileW} (hs : f.OneSpan)
    (hb : kStartBigFile < f.header.end_) (hc : f.header.compression = 1) (hsi : f.sinfos = [])
    (hz : f.header.seekInfo = 0) :
    ∃ f', writeStreamerInfo env f = (.ok (), f') ∧ f'.sinfos = [] ∧ f'.OneSpan ∧ f'.dir = f.dir := by
  have hbig : f.isBig = true := by simp [FileW.isBig, FileHeader.isBig, hb]
  have hb' : 2000000000 < f.header.end_ := hb
  have hkl := infoKeyLen_big hbig
  have h0 : findDeepStreamer env f = (.ok (), f) := by
    unfold findDeepStreamer
    rw [Fs.bind_of_ok (Fs.ok_get.2 ⟨rfl, rfl⟩), hsi]
    rfl
  unfold writeStreamerInfo
  rw [Fs.bind_of_ok h0, Fs.bind_of_ok (Fs.ok_get.2 ⟨rfl, rfl⟩), if_neg (by omega)]
  have h1 : Key.new infoName listTitle (b! "TList") 0 f = (.ok (Key.at infoName listTitle (b! "TList") 1 0
      72 100 f.dir.seekDir true []), f) := by
    unfold Key.new
    rw [Fs.bind_of_ok (Fs.ok_get.2 ⟨rfl, rfl⟩), hkl, Fs.bind_of_ok (Fs.i32_eq (by decide) f),
      Fs.bind_of_ok (Fs.i32_eq (by decide) f)]
    simp only [Int.lt_irrefl, if_false]
    rw [Fs.bind_of_ok (Fs.ok_get.2 ⟨rfl, rfl⟩), hbig]
    rfl
  rw [Fs.bind_of_ok h1, hsi]
  obtain ⟨n, w, m1, m2⟩ := noInfos_eq
  have h2 : Fs.marshal 72 (TList.marshal TObject.default none (placedInfos env 0 [])) f = (.ok noInfos, f) :=
    Fs.ok_marshal.2 ⟨⟨n, w, m1, m2⟩, rfl⟩
  have h2 : Fs.marshal (Key.at infoName listTitle (b! "TList") 1 0 72 100 f.dir.seekDir true []).keyLen
    (TList.marshal TObject.default none (placedInfos env 0 [])) f = (.ok noInfos, f) := h2
  rw [Fs.bind_of_ok h2]
  have hlen : asI 4 (noInfos.length : Int) = noInfos.length := by decide
  have hlen2 : (noInfos.length : Int) ≤ 100 := by decide
  have h3 : Key.newFromBuffer infoName listTitle (b! "TList") 1 noInfos f =
      (.ok (Key.at infoName listTitle (b! "TList") 1 noInfos.length
        (f.keyLenFor infoName listTitle (b! "TList")) f.header.end_ f.dir.seekDir true noInfos),
        f.ended (f.header.end_ + (72 + noInfos.length))) := by
    unfold Key.newFromBuffer
    rw [Fs.bind_of_ok (Fs.ok_get.2 ⟨rfl, rfl⟩), hkl, Fs.bind_of_ok (Fs.i32_eq (by decide) f),
      Fs.bind_of_ok (Fs.i32_eq (by rw [hlen]; exact inI4_of_small (by omega) (by show _ ≤ (2000000000 : Int); omega)) f),
      hc, compressPayload_eq, Fs.bind_of_ok (Fs.ok_lift.2 ⟨rfl, rfl⟩),
      Fs.bind_of_ok (Fs.i32_eq (by rw [hlen]; exact inI4_of_small (by omega) (by show _ ≤ (2000000000 : Int); omega)) f),
      Fs.bind_of_ok (Fs.setEnd_eq hs _), hlen, hbig]
    rfl
  rw [Fs.bind_of_ok h3, Fs.bind_of_ok (Fs.ok_modify.2 rfl : Fs.modify _ _ = (.ok (), _)),
    Key.writeToFile_eq (Key.at_writable_big (by omega) (by omega) (by omega))]
  exact ⟨_, rfl, hsi, rfl, rfl⟩

theorem writeFreeSegments_runs {f : FileW} (hs : f.OneSpan) (hb : kStartBigFile < f.header.end_)
    (hz : f.header.seekFree = 0) (hn : f.keyLenFor f.dir.name f.dir.title (b! "TFile") ≤ 1000000) :
    ∃ f', writeFreeSegments f = (.ok (), f') := by
  have hkl := f.keyLenFor_nonneg f.dir.name f.dir.title (b! "TFile")
  have hb' : 2000000000 < f.header.end_ := hb
  unfold writeFreeSegments
  rw [Fs.bind_of_ok (Fs.ok_get.2 ⟨rfl, rfl⟩), if_neg (by omega)]
  have h1 : Fs.sum 0 (f.spans.map FreeSegments.sizeOf) f = (.ok 10, f) := by
    rw [show f.spans = _ from hs]; rfl
  rw [Fs.bind_of_ok h1, Fs.bind_of_ok (Key.new_eq hs (by decide) (by omega))]
  have hbig2 : (f.ended (f.header.end_ + (10 + f.keyLenFor f.dir.name f.dir.title (b! "TFile")))).isBig = true := by
    have : kStartBigFile < f.header.end_ + (10 + f.keyLenFor f.dir.name f.dir.title (b! "TFile")) := by
      show 2000000000 < _; omega
    simp only [FileW.isBig, FileHeader.isBig, FileW.ended, this, decide_true]
  rw [if_neg (by show f.header.end_ ≠ 0; omega), Fs.bind_of_ok (Fs.ok_get.2 ⟨rfl, rfl⟩), hbig2]
  simp only [not_true_eq_false, false_and, if_false]
  have h2 := Fs.marshal_writes (off := 0) (Writes.counted (Writes.each (enc := FreeSegments.enc)
    (l := (f.ended (f.header.end_ + (10 + f.keyLenFor f.dir.name f.dir.title (b! "TFile")))).spans)
    fun s _ => (FreeSegments.writes s).drop))
    (f.ended (f.header.end_ + (10 + f.keyLenFor f.dir.name f.dir.title (b! "TFile"))))
  rw [Fs.bind_of_ok h2, if_neg (by
    show ¬ (((FreeSegments.enc ⟨_, kStartBigFile⟩ ++ []).length : Int) ≠ 10)
    rw [List.append_nil, freeEnc_length _ _ (Int.le_refl _)]; decide),
    Fs.bind_of_ok (Fs.ok_modify.2 rfl : Fs.modify _ _ = (.ok (), _))]
  exact ⟨_, Key.writeToFile_eq (Key.at_writable_big (seek := f.header.end_) (len := 10) (by decide) (by omega) (by omega)) _⟩

/-- Closing a file above 2 GB. -/
theorem close_runs {env : Env} {path : Str} {f : FileW} (hi : Lasting path f)
    (hlim : dirPos path + 60 ≤ 1000000) (h1 : 2 ^ 31 ≤ f.header.end_) (h2 : f.header.end_ < 2 ^ 32)
    (hk : ∀ k ∈ f.dir.keys, k.Writable) (hl : (f.dir.keys.map Key.keyLen).sum ≤ 1000000)
    (hsi : f.sinfos = []) : ∃ f', closeFile env f = (.ok (), f') := by
  have hdp' : dirPos path = 100 + (dirKeyLen path + dirNameLen path) := rfl
  have hn0 : 0 < dirNameLen path := by
    have h1 := tstringSizeof_pos path
    have h3 : tstringSizeof [] = 1 := rfl
    unfold dirNameLen; omega
  have hkf : 22 + 4 + 6 + tstringSizeof path + 1 + 0 = dirKeyLen path := rfl
  have hkl : ∀ (g : FileW), g.dir.name = path → g.dir.title = [] → ∀ c : Str, tstringSizeof c ≤ 20 →
      c ≠ b! "TBasket" → g.keyLenFor g.dir.name g.dir.title c ≤ 1000000 := by
    intro g e1 e2 c hc hnb
    unfold FileW.keyLenFor keyLenFor
    rw [e1, e2, if_neg hnb, show tstringSizeof [] = 1 from rfl]
    split <;> omega
  have d1 : f.dir.name = path := by rw [hi.dir]; rfl
  have d2 : f.dir.title = [] := by rw [hi.dir]; rfl
  have hE : kStartBigFile < f.header.end_ := by show 2000000000 < _; omega
  have hlim' : dirPos path + 60 ≤ kStartBigFile := by show _ ≤ (2000000000 : Int); omega
  have hdp := dirPos_ge path
  unfold closeFile
  rw [Fs.bind_of_ok (Fs.ok_get.2 ⟨rfl, rfl⟩)]
  obtain ⟨d, f1, g0, g1, g2⟩ := saveKeys_runs hi.span hE hk hl (hkl f d1 d2 _ (by decide) (by decide))
  obtain ⟨n, a1, a2, a3, a4⟩ := saveKeys_big hi.span hi.keys g0
  have hh1 : f1.header = { f.header with end_ := f.header.end_ + n } := by rw [a4]; rfl
  have q1 : d.ctime = dateNow := by rw [a1, hi.dir]; rfl
  have q2 : d.seekDir + d.nBytesName = dirPos path := by rw [a1, hi.dir, hdp']; rfl
  rw [Fs.bind_of_ok g0, Fs.bind_of_ok (writeDirHeader_eq f1 q1 (by omega)),
    Fs.bind_of_ok (Fs.ok_modify.2 rfl : Fs.modify _ _ = (.ok (), _))]
  generalize hf2 : ({ f1 with dir := _, trace := _ } : FileW) = f2
  have e1 : f2.header = { f.header with end_ := f.header.end_ + n } := by rw [← hf2]; exact hh1
  have e2 : f2.OneSpan := by rw [← hf2, a4]; exact FileW.ended_oneSpan _ _
  have e3 : f2.sinfos = [] := by rw [← hf2]; exact g1.trans hsi
  have e4 : f2.dir.name = path := by rw [← hf2, ← d1]; show d.name = _; rw [a1]
  have e5 : f2.dir.title = [] := by rw [← hf2, ← d2]; show d.title = _; rw [a1]
  have e6 : f2.header.end_ = f.header.end_ + n := by rw [e1]
  have hz1 : f2.header.seekInfo = 0 := by rw [e1, hi.hdr]; rfl
  have hz2 : f2.header.seekFree = 0 := by rw [e1, hi.hdr]; rfl
  have e7 : f2.header.compression = 1 := by rw [e1]; exact hi.comp
  obtain ⟨f3, g3, -, g4, g5⟩ := writeStreamerInfo_runs (env := env) e2
    (by show 2000000000 < _; omega) e7 e3 hz1
  obtain ⟨n2, ws2, b1, b2, b3, b4, b5, b6, b7⟩ := writeStreamerInfo_big e2 e7 g3
  rw [Fs.bind_of_ok g3]
  have e8 : f3.header.end_ = f.header.end_ + n + n2 := by rw [b7, ← e6]
  obtain ⟨f4, g6⟩ := writeFreeSegments_runs b6 (by show 2000000000 < _; omega)
    (by rw [b7]; exact hz2) (hkl f3 (by rw [b5, e4]) (by rw [b5, e5]) _ (by decide) (by decide))
  obtain ⟨n3, ws3, c1, c2, c3, c4, c5, c6, c7⟩ := writeFreeSegments_big b6 g6
  rw [Fs.bind_of_ok g6]
  have hfin : f4.header = { createdHeader path with
      end_ := f.header.end_ + n + n2 + n3, seekInfo := f.header.end_ + n, nBytesInfo := n2,
      seekFree := f.header.end_ + n + n2, nBytesFree := n3 } := by
    rw [c7, e8, b7, e6, e1, hi.hdr]
  obtain ⟨hw, hr⟩ := header_big hlim' hfin h1 h2 a2 a3 b1 b2 c1 c2
  exact ⟨_, writeHeader_big (by rw [show f4.spans = _ from c6]; rfl) (by rw [hfin]; rfl) hw hr⟩

end Verif
