import Verif.Model.Session
import Verif.Lemmas.Disk
import Verif.Lemmas.Records
namespace Verif

/-! ### Running file operations -/

namespace Fs

theorem ok_bind {α β} {m : Fs α} {k : α → Fs β} {f : FileW} {b : β} {f' : FileW} :
    (m >>= k) f = (.ok b, f') ↔ ∃ a f1, m f = (.ok a, f1) ∧ k a f1 = (.ok b, f') := by
  show (match m f with | (.ok a, f') => k a f' | (.error e, f') => (.error e, f')) = _ ↔ _
  rcases m f with ⟨r, f1⟩
  cases r with
  | error e => simp
  | ok a =>
    constructor
    · intro h; exact ⟨a, f1, rfl, h⟩
    · rintro ⟨a', f1', h1, h2⟩
      injection h1 with h1 h3
      injection h1 with h1
      subst h1; subst h3; exact h2

theorem err_bind {α β} {m : Fs α} {k : α → Fs β} {f : FileW} {e : Fault} {f' : FileW} :
    (m >>= k) f = (.error e, f') ↔
      m f = (.error e, f') ∨ ∃ a f1, m f = (.ok a, f1) ∧ k a f1 = (.error e, f') := by
  show (match m f with | (.ok a, f') => k a f' | (.error e, f') => (.error e, f')) = _ ↔ _
  rcases m f with ⟨r, f1⟩
  cases r with
  | error e' => simp
  | ok a =>
    constructor
    · intro h; exact Or.inr ⟨a, f1, rfl, h⟩
    · rintro (h | ⟨a', f1', h1, h2⟩)
      · simp at h
      · injection h1 with h1 h3
        injection h1 with h1
        subst h1; subst h3; exact h2

theorem bind_of_ok {α β} {m : Fs α} {k : α → Fs β} {f : FileW} {a : α} {f1 : FileW}
    (h : m f = (.ok a, f1)) : (m >>= k) f = k a f1 := by
  show (match m f with | (.ok a, f') => k a f' | (.error e, f') => (.error e, f')) = _
  rw [h]

theorem bind_of_err {α β} {m : Fs α} {k : α → Fs β} {f : FileW} {e : Fault} {f1 : FileW}
    (h : m f = (.error e, f1)) : (m >>= k) f = (.error e, f1) := by
  show (match m f with | (.ok a, f') => k a f' | (.error e, f') => (.error e, f')) = _
  rw [h]

theorem ok_pure {α} {a b : α} {f f' : FileW} :
    (Pure.pure a : Fs α) f = (.ok b, f') ↔ a = b ∧ f = f' := by
  show (Except.ok a, f) = _ ↔ _
  simp

theorem pure_eq {α} (a : α) (f : FileW) : (Pure.pure a : Fs α) f = (.ok a, f) := rfl

theorem ok_i32 {v a : Int} {f f' : FileW} : Fs.i32 v f = (.ok a, f') ↔ InI 4 v ∧ v = a ∧ f = f' := by
  unfold Fs.i32
  split
  · rw [ok_pure]
    constructor
    · rintro ⟨rfl, rfl⟩; exact ⟨by assumption, rfl, rfl⟩
    · rintro ⟨_, rfl, rfl⟩; exact ⟨rfl, rfl⟩
  · constructor
    · intro h; simp [Fs.panic] at h
    · rintro ⟨h, _⟩; contradiction

theorem i32_eq {v : Int} (h : InI 4 v) (f : FileW) : Fs.i32 v f = (.ok v, f) := by
  unfold Fs.i32; rw [if_pos h]; rfl

theorem ok_lift {α} {r : Res α} {a : α} {f f' : FileW} :
    Fs.lift r f = (.ok a, f') ↔ r = .ok a ∧ f = f' := by
  show (r, f) = _ ↔ _
  simp

theorem ok_get {a : FileW} {f f' : FileW} : Fs.get f = (.ok a, f') ↔ f = a ∧ f = f' := by
  show (Except.ok f, f) = _ ↔ _
  simp

theorem ok_modify {g : FileW → FileW} {u : Unit} {f f' : FileW} :
    Fs.modify g f = (.ok u, f') ↔ g f = f' := by
  show (Except.ok (), g f) = _ ↔ _
  simp

theorem ok_panic {α} {a : α} {f f' : FileW} : Fs.panic f = (.ok a, f') ↔ False := by
  simp [Fs.panic]

theorem ok_fail {α} {a : α} {e : Err} {f f' : FileW} : Fs.fail e f = (.ok a, f') ↔ False := by
  simp [Fs.fail]

theorem ok_marshal {off : Int} {m : Wr Nat} {bs : List Byte} {f f' : FileW} :
    Fs.marshal off m f = (.ok bs, f') ↔
      (∃ n w, m (WBuffer.new off.toNat) = .ok (n, w) ∧ w.p = bs) ∧ f = f' := by
  unfold Fs.marshal
  split
  · next n w h =>
    constructor
    · intro h'
      injection h' with h1 h2
      injection h1 with h1
      exact ⟨⟨n, w, by rw [h], h1⟩, h2⟩
    · rintro ⟨⟨n', w', h1, rfl⟩, rfl⟩
      rw [h] at h1
      injection h1 with h1
      injection h1 with _ h1
      rw [h1]
  · next e h =>
    constructor
    · intro h'; simp at h'
    · rintro ⟨⟨n', w', h1, _⟩, _⟩
      rw [h] at h1; simp at h1

theorem marshal_writes {off : Int} {m : Wr Nat} {bs : List Byte} {n : Nat} (h : Writes m bs n)
    (f : FileW) : Fs.marshal off m f = (.ok bs, f) := by
  rw [ok_marshal]
  refine ⟨⟨n, _, h _ (WBuffer.new_WF _), ?_⟩, rfl⟩
  simp [WBuffer.new]

theorem ok_writeAt {data : List Byte} {pos : Int} {u : Unit} {f f' : FileW} :
    Fs.writeAt data pos f = (.ok u, f') ↔
      0 ≤ pos ∧ { f with trace := f.trace ++ [⟨pos.toNat, data⟩] } = f' := by
  unfold Fs.writeAt
  split
  · constructor
    · intro h; simp at h
    · rintro ⟨h, _⟩; omega
  · constructor
    · intro h; injection h with _ h2; exact ⟨by omega, h2⟩
    · rintro ⟨_, rfl⟩; rfl

end Fs

/-- The file after `set_end`. -/
def FileW.ended (f : FileW) (pos : Int) : FileW :=
  { f with header := { f.header with end_ := pos }, spans := [⟨pos, kStartBigFile⟩] }

/-- One free segment, reaching to the limit (as after creation). -/
def FileW.OneSpan (f : FileW) : Prop := f.spans = [⟨f.header.end_, kStartBigFile⟩]

theorem FileW.ended_oneSpan (f : FileW) (pos : Int) : (f.ended pos).OneSpan := rfl

theorem Fs.setEnd_eq {f : FileW} (h : f.OneSpan) (pos : Int) :
    Fs.setEnd pos f = (.ok (), f.ended pos) := by
  obtain ⟨hd, sp, si, d, i, n, t⟩ := f
  unfold FileW.OneSpan at h
  simp only at h
  subst h
  rfl

/-! ### Sizes -/

theorem tstringSizeof_pos (s : Str) : (s.length : Int) < tstringSizeof s := by
  unfold tstringSizeof; split <;> omega

theorem tstringSizeof_le (s : Str) : tstringSizeof s ≤ s.length + 5 := by
  unfold tstringSizeof; split <;> omega

theorem keyLenFor_ge (name title cls : Str) (a b : Bool) :
    26 ≤ keyLenFor name title cls a b ∧ (name.length : Int) < keyLenFor name title cls a b ∧
      (title.length : Int) < keyLenFor name title cls a b ∧
      (cls.length : Int) < keyLenFor name title cls a b := by
  have h1 := tstringSizeof_pos name
  have h2 := tstringSizeof_pos title
  have h3 := tstringSizeof_pos cls
  unfold keyLenFor
  split <;> split <;> omega

theorem asI_of {k : Nat} (hk : 0 < k) {v : Int} (h : InI k v) : asI k v = v :=
  toSigned_wrapI hk h

theorem asI4_nat {n : Nat} (h : (n : Int) ≤ kStartBigFile) : asI 4 n = n :=
  asI_of (by decide) (inI4_of_small (by omega) h)

theorem compressPayload_one {src out : List Byte} (h : compressPayload src 1 = .ok out) :
    out = src := by
  unfold compressPayload at h
  rw [if_neg (by decide), if_pos (Or.inl (by decide))] at h
  injection h with h
  exact h.symm

/-! ### Keys -/

/-- The part of the state that no operation changes. -/
structure FileW.Regular (f : FileW) : Prop where
  span : f.OneSpan
  comp : f.header.compression = 1
  dirv : f.dir.rvers = rversDirectory

theorem FileW.Regular.ended {f : FileW} (h : f.Regular) (pos : Int) : (f.ended pos).Regular :=
  ⟨rfl, h.comp, h.dirv⟩

theorem FileW.Regular.dirBig {f : FileW} (h : f.Regular) : f.dir.isBig = false := by
  unfold Dir.isBig; rw [h.dirv]; rfl

/-- The key of a record of the given length at position `seek`. -/
def Key.at (name title cls : Str) (cycle len kl seek pdir : Int) (big : Bool)
    (buf : List Byte) : Key :=
  { rvers := if big then rversKey + 1000 else rversKey
    nBytes := kl + len, objLen := len, keyLen := kl, cycle := cycle, seekKey := seek,
    seekPdir := pdir, cls := cls, name := name, title := title, buffer := buf }

theorem Key.new_ok {f f' : FileW} {n t c : Str} {len : Int} {k : Key} (hr : f.OneSpan)
    (h : Key.new n t c len f = (.ok k, f')) :
    InI 4 (f.keyLenFor n t c) ∧ InI 4 (len + f.keyLenFor n t c) ∧
    f' = (if 0 < len then f.ended (f.header.end_ + (f.keyLenFor n t c + len)) else f) ∧
    k = Key.at n t c 1 len (f.keyLenFor n t c) (if 0 < len then f.header.end_ else 100)
      f.dir.seekDir f'.isBig [] := by
  unfold Key.new at h
  obtain ⟨_, _, h0, h⟩ := Fs.ok_bind.1 h
  obtain ⟨rfl, rfl⟩ := Fs.ok_get.1 h0
  obtain ⟨_, _, h0, h⟩ := Fs.ok_bind.1 h
  obtain ⟨i1, rfl, rfl⟩ := Fs.ok_i32.1 h0
  obtain ⟨_, _, h0, h⟩ := Fs.ok_bind.1 h
  obtain ⟨i2, rfl, rfl⟩ := Fs.ok_i32.1 h0
  refine ⟨i1, i2, ?_⟩
  have e : len + f.keyLenFor n t c = f.keyLenFor n t c + len := Int.add_comm _ _
  by_cases hl : 0 < len
  · simp only [hl, if_true] at h ⊢
    rw [Fs.bind_of_ok (Fs.setEnd_eq hr _)] at h
    obtain ⟨_, _, h0, h⟩ := Fs.ok_bind.1 h
    obtain ⟨rfl, rfl⟩ := Fs.ok_get.1 h0
    obtain ⟨rfl, rfl⟩ := Fs.ok_pure.1 h
    rw [e]
    exact ⟨rfl, rfl⟩
  · simp only [hl, if_false] at h ⊢
    obtain ⟨_, _, h0, h⟩ := Fs.ok_bind.1 h
    obtain ⟨rfl, rfl⟩ := Fs.ok_get.1 h0
    obtain ⟨rfl, rfl⟩ := Fs.ok_pure.1 h
    rw [e]
    exact ⟨rfl, rfl⟩

theorem Key.newFromBuffer_ok {f f' : FileW} {n t c : Str} {cy : Int} {buf : List Byte} {k : Key}
    (hr : f.OneSpan) (hc : f.header.compression = 1)
    (h : Key.newFromBuffer n t c cy buf f = (.ok k, f')) :
    InI 4 (f.keyLenFor n t c) ∧ InI 4 (f.keyLenFor n t c + asI 4 buf.length) ∧
    f' = f.ended (f.header.end_ + (f.keyLenFor n t c + asI 4 buf.length)) ∧
    k = Key.at n t c cy (asI 4 buf.length) (f.keyLenFor n t c) f.header.end_ f.dir.seekDir
      f.isBig buf := by
  unfold Key.newFromBuffer at h
  obtain ⟨_, _, h0, h⟩ := Fs.ok_bind.1 h
  obtain ⟨rfl, rfl⟩ := Fs.ok_get.1 h0
  obtain ⟨_, _, h0, h⟩ := Fs.ok_bind.1 h
  obtain ⟨i1, rfl, rfl⟩ := Fs.ok_i32.1 h0
  obtain ⟨_, _, h0, h⟩ := Fs.ok_bind.1 h
  obtain ⟨i2, rfl, rfl⟩ := Fs.ok_i32.1 h0
  obtain ⟨_, _, h0, h⟩ := Fs.ok_bind.1 h
  obtain ⟨h1, rfl⟩ := Fs.ok_lift.1 h0
  rw [hc] at h1
  cases compressPayload_one h1
  obtain ⟨_, _, h0, h⟩ := Fs.ok_bind.1 h
  obtain ⟨-, rfl, rfl⟩ := Fs.ok_i32.1 h0
  rw [Fs.bind_of_ok (Fs.setEnd_eq hr _)] at h
  obtain ⟨rfl, rfl⟩ := Fs.ok_pure.1 h
  exact ⟨i1, i2, rfl, rfl⟩

theorem Key.newFromObject_ok {f f' : FileW} {n t c : Str} {obj : Wr Nat} {k : Key}
    (hr : f.OneSpan) (hc : f.header.compression = 1)
    (h : Key.newFromObject n t c obj f = (.ok k, f')) :
    InI 4 (f.keyLenFor n t c) ∧ ∃ m w, obj (WBuffer.new (f.keyLenFor n t c).toNat) = .ok (m, w) ∧
    InI 4 (f.keyLenFor n t c + asI 4 w.p.length) ∧
    f' = f.ended (f.header.end_ + (f.keyLenFor n t c + asI 4 w.p.length)) ∧
    k = Key.at n t c 1 (asI 4 w.p.length) (f.keyLenFor n t c) f.header.end_ f.dir.seekDir
      f.isBig w.p := by
  unfold Key.newFromObject at h
  obtain ⟨_, _, h0, h⟩ := Fs.ok_bind.1 h
  obtain ⟨rfl, rfl⟩ := Fs.ok_get.1 h0
  obtain ⟨_, _, h0, h⟩ := Fs.ok_bind.1 h
  obtain ⟨i1, rfl, rfl⟩ := Fs.ok_i32.1 h0
  obtain ⟨_, _, h0, h⟩ := Fs.ok_bind.1 h
  obtain ⟨⟨m, w, hm, rfl⟩, rfl⟩ := Fs.ok_marshal.1 h0
  obtain ⟨_, _, h0, h⟩ := Fs.ok_bind.1 h
  obtain ⟨i2, rfl, rfl⟩ := Fs.ok_i32.1 h0
  obtain ⟨_, _, h0, h⟩ := Fs.ok_bind.1 h
  obtain ⟨h1, rfl⟩ := Fs.ok_lift.1 h0
  rw [hc] at h1
  cases compressPayload_one h1
  obtain ⟨_, _, h0, h⟩ := Fs.ok_bind.1 h
  obtain ⟨-, rfl, rfl⟩ := Fs.ok_i32.1 h0
  rw [Fs.bind_of_ok (Fs.setEnd_eq hr _)] at h
  obtain ⟨rfl, rfl⟩ := Fs.ok_pure.1 h
  exact ⟨i1, m, w, hm, i2, rfl, rfl⟩

/-- The packed current date. -/
abbrev packedNow : Nat := 1843285647

/-- What is needed for a key to be written. -/
structure Key.Writable (k : Key) : Prop where
  nBytes : 0 ≤ k.nBytes
  seek : 0 ≤ k.seekKey
  keyLen : 0 ≤ k.keyLen
  form : kStartBigFile < k.seekKey → 1000 ≤ k.rvers
  cls : k.cls.length < 2 ^ 31
  name : k.name.length < 2 ^ 31
  title : k.title.length < 2 ^ 31
  date : k.datetime = dateNow
  left : k.left = 0

theorem Key.Writable.writes {k : Key} (h : k.Writable) :
    Writes k.marshal (k.enc packedNow) (k.enc packedNow).length :=
  Key.writes_of h.nBytes h.form h.cls h.name h.title (by rw [h.date]; exact datetimeToU32_now)

/-- The two writes of a key and its data. -/
def Key.twoWrites (k : Key) (rec : List Byte) : List DiskWrite :=
  [⟨k.seekKey.toNat, rec⟩, ⟨(k.seekKey + k.keyLen).toNat, k.buffer⟩]

theorem Key.writeToFile_eq {k : Key} (h : k.Writable) (f : FileW) :
    k.writeToFile f =
      (.ok (), { f with trace := f.trace ++ k.twoWrites (k.enc packedNow) }) := by
  have h1 := h.seek
  have h2 := h.keyLen
  unfold Key.writeToFile
  rw [if_neg (by rw [h.left]; decide), Fs.bind_of_ok (Fs.marshal_writes h.writes f),
    Fs.bind_of_ok (Fs.ok_writeAt.2 ⟨h1, rfl⟩ : Fs.writeAt _ _ _ = (.ok (), _)),
    (Fs.ok_writeAt.2 ⟨by omega, rfl⟩ : Fs.writeAt _ _ _ = (.ok (), _))]
  simp [Key.twoWrites]

theorem Key.at_writable {n t c : Str} {cy len seek pdir : Int} {big : Bool} {buf : List Byte}
    {a b : Bool} (hl : 0 ≤ Verif.keyLenFor n t c a b + len) (hs : 0 ≤ seek) (hb : seek ≤ kStartBigFile)
    (hk : InI 4 (Verif.keyLenFor n t c a b)) :
    (Key.at n t c cy len (Verif.keyLenFor n t c a b) seek pdir big buf).Writable := by
  have := keyLenFor_ge n t c a b
  have h4 := hk.2
  simp only [show (((256 : Nat) ^ 4 : Nat) : Int) = 4294967296 by decide] at h4
  constructor <;> simp only [Key.at] <;> omega

theorem Key.writeToFile_neg {k : Key} (h : k.nBytes < 0) (hl : k.left = 0) (f : FileW) :
    k.writeToFile f = (.error .panic, f) := by
  have hm : k.marshal (WBuffer.new (0 : Int).toNat) = .error .panic := by
    unfold Key.marshal Wr.counted
    rw [Wr.bind_ok (w' := (WBuffer.new (0 : Int).toNat)) rfl]
    refine Wr.bind_err ?_
    rw [if_pos h]
    rfl
  unfold Key.writeToFile
  rw [if_neg (by rw [hl]; decide)]
  refine Fs.bind_of_err ?_
  unfold Fs.marshal
  rw [hm]

/-- A key made by one of the constructors, if it gets written. -/
theorem Key.at_written {n t c : Str} {cy len seek pdir : Int} {big : Bool} {buf : List Byte}
    {a b : Bool} {f f' : FileW} {u : Unit} (hs : 0 ≤ seek) (hb : seek ≤ kStartBigFile)
    (hk : InI 4 (Verif.keyLenFor n t c a b))
    (h : (Key.at n t c cy len (Verif.keyLenFor n t c a b) seek pdir big buf).writeToFile f =
      (.ok u, f')) :
    let k := Key.at n t c cy len (Verif.keyLenFor n t c a b) seek pdir big buf
    k.Writable ∧ f' = { f with trace := f.trace ++ k.twoWrites (k.enc packedNow) } := by
  intro k
  by_cases hl : 0 ≤ Verif.keyLenFor n t c a b + len
  · have hw : k.Writable := Key.at_writable hl hs hb hk
    refine ⟨hw, ?_⟩
    rw [Key.writeToFile_eq hw] at h
    injection h with _ h
    exact h.symm
  · rw [Key.writeToFile_neg (by simp only [Key.at]; omega) rfl] at h
    simp at h

/-! ### Streamer records -/

/-- Only the streamer records and the counter of identification numbers differ. -/
def FileW.SameBut (f f' : FileW) : Prop := f' = { f with sinfos := f'.sinfos, ids := f'.ids }

theorem FileW.SameBut.refl (f : FileW) : f.SameBut f := rfl

theorem FileW.SameBut.trans {f g h : FileW} (a : f.SameBut g) (b : g.SameBut h) : f.SameBut h := by
  unfold FileW.SameBut at *
  rw [b, a]

theorem FileW.sameBut (f : FileW) (s : List StreamerInfo) (n : Nat) :
    f.SameBut { f with sinfos := s, ids := n } := rfl

/-- Adding a record unless there is one of the same name. -/
def addInfo (sis : List StreamerInfo) (si : StreamerInfo) : List StreamerInfo :=
  if sis.any (fun s => s.name = si.name) then sis else sis ++ [si]

theorem addStreamerInfo_eq (si : StreamerInfo) (f : FileW) :
    addStreamerInfo si f = (.ok (), { f with sinfos := addInfo f.sinfos si }) := by
  unfold addStreamerInfo addInfo
  rw [Fs.bind_of_ok (show Fs.get f = (.ok f, f) from rfl)]
  split <;> rfl

theorem registerInfo_eq (si : StreamerInfo) (f : FileW) :
    registerInfo si f = (.ok (), { f with sinfos := addInfo f.sinfos (si.cloneAt f.ids)
                                          ids := f.ids + si.elems.length + 1 }) := by
  unfold registerInfo
  rw [Fs.bind_of_ok (show Fs.get f = (.ok f, f) from rfl), Fs.bind_of_ok
    (show Fs.modify (fun f => { f with ids := f.ids + si.elems.length + 1 }) f = (.ok (), _) from rfl),
    addStreamerInfo_eq]

theorem Fs.dictionary_ok {env : Env} {n : Str} {v : Int} {f f' : FileW} {si : StreamerInfo}
    (h : Fs.dictionary env n v f = (.ok si, f')) :
    ∃ m, env.lookup n v f.ids = .ok (si, m) ∧ f' = { f with ids := m } := by
  unfold Fs.dictionary at h
  obtain ⟨_, _, h0, h⟩ := Fs.ok_bind.1 h
  obtain ⟨rfl, rfl⟩ := Fs.ok_get.1 h0
  obtain ⟨⟨si', m⟩, _, h0, h⟩ := Fs.ok_bind.1 h
  obtain ⟨h1, rfl⟩ := Fs.ok_lift.1 h0
  obtain ⟨_, _, h0, h⟩ := Fs.ok_bind.1 h
  cases Fs.ok_modify.1 h0
  obtain ⟨rfl, rfl⟩ := Fs.ok_pure.1 h
  exact ⟨m, h1, rfl⟩

theorem Fs.dictionary_err {env : Env} {n : Str} {v : Int} {f f' : FileW} {e : Fault}
    (h : Fs.dictionary env n v f = (.error e, f')) : e = .panic := by
  unfold Fs.dictionary at h
  rw [Fs.bind_of_ok (show Fs.get f = (.ok f, f) from rfl)] at h
  unfold Env.lookup at h
  split at h
  · have : (Fs.lift (.error .panic : Res (StreamerInfo × Nat))) f = (.error .panic, f) := rfl
    rw [Fs.bind_of_err this] at h
    injection h with h _
    injection h with h
    exact h.symm
  · next s _ =>
    exact absurd h (by
      intro h
      rcases Fs.err_bind.1 h with h | ⟨_, _, h0, h⟩
      · cases h
      · rcases Fs.err_bind.1 h with h | ⟨_, _, h0, h⟩
        · cases h
        · cases h)

end Verif
