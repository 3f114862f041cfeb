import Verif.Props.Storage
/-
C07: a key occupies exactly the space it declares.
-/
namespace Verif

theorem Key.at_length {n t c : Str} {cy len seek pdir : Int} {big : Bool} {buf : List Byte} {v : Nat} :
    (((Key.at n t c cy len (Verif.keyLenFor n t c false big) seek pdir big buf).enc v).length : Int) =
      Verif.keyLenFor n t c false big - (if c = b! "TBasket" then 19 else 0) := by
  rw [Key.enc_length]
  simp only [Key.at, keyLenFor, rversKey]
  cases big
  · have h4 : ¬ (1000 : Int) < 4 := by decide
    simp only [Bool.false_eq_true, if_false, Bool.or_self, h4]
    split <;> omega
  · have h4 : (1000 : Int) < 4 + 1000 := by decide
    simp only [if_true, Bool.or_true, h4]
    split <;> omega

theorem Key.marshal_neg {k : Key} (h : k.nBytes < 0) (off : Nat) :
    k.marshal (WBuffer.new off) = .error .panic := by
  unfold Key.marshal Wr.counted
  rw [Wr.bind_ok (w' := WBuffer.new off) rfl]
  refine Wr.bind_err ?_
  rw [if_pos h]
  rfl

/-- What a key writes, when it can be written. -/
theorem Key.at_marshal {n t c : Str} {cy len seek pdir : Int} {big : Bool} {buf : List Byte}
    {m : Nat} {w : WBuffer} {off : Nat} (hl : InI 4 (Verif.keyLenFor n t c false big))
    (hb : kStartBigFile < seek → big = true)
    (h : (Key.at n t c cy len (Verif.keyLenFor n t c false big) seek pdir big buf).marshal
      (WBuffer.new off) = .ok (m, w)) :
    (w.p.length : Int) = Verif.keyLenFor n t c false big - (if c = b! "TBasket" then 19 else 0) := by
  have h26 := keyLenFor_ge n t c false big
  have h4 := inI4_bounds hl
  rcases Int.lt_or_le (Verif.keyLenFor n t c false big + len) 0 with hn | hn
  · have hm := Key.marshal_neg
      (k := Key.at n t c cy len (Verif.keyLenFor n t c false big) seek pdir big buf) hn off
    rw [hm] at h
    cases h
  · have hw := Key.writes_of (k := Key.at n t c cy len (Verif.keyLenFor n t c false big) seek pdir big buf)
      hn (fun h => by
        rw [hb h]; exact (by decide : (1000 : Int) ≤ 1004)) (by simp only [Key.at]; omega) (by simp only [Key.at]; omega)
      (by simp only [Key.at]; omega) datetimeToU32_now
    rw [hw (WBuffer.new off) rfl] at h
    injection h with h
    injection h with h h'
    rw [← h', ← Key.at_length (v := packedNow)]
    rfl


/-- The number of bytes the rest of a basket header takes behind its key. -/
abbrev basketExtra (cls : Str) : Int := if cls = b! "TBasket" then 19 else 0

/-- C07 for `Key::new`: what is written has the declared length, as long as the file stays on one side
of the 2 GB limit during the call. -/
theorem C07_new {n t c : Str} {len : Int} {f f' : FileW} {k : Key} {m off : Nat} {w : WBuffer}
    (hs : f.OneSpan) (hd : f.dir.isBig = false) (h : Key.new n t c len f = (.ok k, f'))
    (hside : f'.isBig = f.isBig) (hm : k.marshal (WBuffer.new off) = .ok (m, w)) :
    (w.p.length : Int) = k.keyLen - basketExtra c ∧ k.nBytes = k.keyLen + len := by
  obtain ⟨i1, i2, hf', hk⟩ := Key.new_ok hs h
  unfold FileW.keyLenFor at i1 hk
  rw [hd] at i1 hk
  rw [hside] at hk
  have hbig : kStartBigFile < (if 0 < len then f.header.end_ else 100) → f.isBig = true := by
    intro h
    split at h
    · exact decide_eq_true h
    · exact absurd h (by decide)
  subst hk
  exact ⟨Key.at_marshal i1 hbig hm, rfl⟩

/-- C07 for `Key::new_from_buffer`, on either side of the limit. -/
theorem C07_buffer {n t c : Str} {cy : Int} {buf : List Byte} {f f' : FileW} {k : Key} {m off : Nat}
    {w : WBuffer} (hs : f.OneSpan) (hc : f.header.compression = 1) (hd : f.dir.isBig = false)
    (h : Key.newFromBuffer n t c cy buf f = (.ok k, f'))
    (hm : k.marshal (WBuffer.new off) = .ok (m, w)) :
    (w.p.length : Int) = k.keyLen - basketExtra c ∧ k.nBytes = k.keyLen + k.objLen ∧
      k.seekKey = f.header.end_ ∧ f'.header.end_ = k.seekKey + k.nBytes := by
  obtain ⟨i1, i2, hf', hk⟩ := Key.newFromBuffer_ok hs hc h
  unfold FileW.keyLenFor at i1 hk hf'
  rw [hd] at i1 hk hf'
  subst hk
  refine ⟨Key.at_marshal i1 (fun h => decide_eq_true h) hm, rfl, rfl, ?_⟩
  rw [hf']
  rfl

/-- C07 for `Key::new_from_object`, on either side of the limit. -/
theorem C07_object {n t c : Str} {obj : Wr Nat} {f f' : FileW} {k : Key} {m off : Nat}
    {w : WBuffer} (hs : f.OneSpan) (hc : f.header.compression = 1) (hd : f.dir.isBig = false)
    (h : Key.newFromObject n t c obj f = (.ok k, f'))
    (hm : k.marshal (WBuffer.new off) = .ok (m, w)) :
    (w.p.length : Int) = k.keyLen - basketExtra c ∧ k.nBytes = k.keyLen + k.objLen ∧
      k.seekKey = f.header.end_ ∧ f'.header.end_ = k.seekKey + k.nBytes := by
  obtain ⟨i1, m', w', -, i2, hf', hk⟩ := Key.newFromObject_ok hs hc h
  unfold FileW.keyLenFor at i1 hk hf'
  rw [hd] at i1 hk hf'
  subst hk
  refine ⟨Key.at_marshal i1 (fun h => decide_eq_true h) hm, rfl, rfl, ?_⟩
  rw [hf']
  rfl

/-- C07 in a session: an accepted `put` writes the key and the payload one right after the other, from
the old end of the file to the new one. -/
theorem C07_put {env : Env} {path name : Str} {ops : List Op} {obj : PutObj} {f f1 : FileW} {u : Unit}
    (h : Session env path ops f) (hput : put env name obj f = (.ok u, f1)) (hb : f1.Below2GB)
    (hcls : obj.cls ≠ b! "TBasket") :
    ∃ a b, f1.trace = f.trace ++ [a, b] ∧ (a.pos : Int) = f.header.end_ ∧
      b.pos = a.pos + a.data.length ∧ (b.pos + b.data.length : Int) = f1.header.end_ := by
  have hi := session_inv h
  obtain ⟨hi1, c, m, w, k, -, hm, hk, hd, ht, hp⟩ := put_inv hi hput hb
  have hlo := hi.good.lo
  have h26 : 26 ≤ kl (putName name obj) obj.title obj.cls := (keyLenFor_ge _ _ _ false false).1
  have henc : ((k.enc packedNow).length : Int) = kl (putName name obj) obj.title obj.cls := by
    rw [hk, Key.at_enc_length]
    unfold extra
    rw [if_neg hcls]
    omega
  have hend : f1.header.end_ =
      f.header.end_ + (kl (putName name obj) obj.title obj.cls + w.p.length) := by
    obtain ⟨-, c', f2, m', w', -, ha, -, -, -, hf'⟩ := put_ok hi.good hput
    have hh : f2.header = f.header := by rw [ha.same]
    have hkk : k = putKey f name obj (asI 2 (c' + 1)) w'.p := by
      have h1 : f1.dir.keys = f2.dir.keys ++ [putKey f name obj (asI 2 (c' + 1)) w'.p] := by
        rw [hf']; rfl
      have h2 : f2.dir = f.dir := by rw [ha.same]
      rw [hd, h2] at h1
      simpa using h1
    have : f1.header.end_ = f2.header.end_ + (k.keyLen + k.objLen) := by
      rw [hf', ← hkk]; rfl
    rw [this, hh, hk]
    rfl
  refine ⟨_, _, ht, ?_, ?_, ?_⟩
  · rw [hk]
    show ((f.header.end_.toNat : Nat) : Int) = _
    omega
  · have e1 : k.seekKey = f.header.end_ := by rw [hk]; rfl
    have e2 : k.keyLen = kl (putName name obj) obj.title obj.cls := by rw [hk]; rfl
    show (k.seekKey + k.keyLen).toNat = k.seekKey.toNat + (k.enc packedNow).length
    rw [e1, e2]
    omega
  · have e1 : k.seekKey = f.header.end_ := by rw [hk]; rfl
    have e2 : k.keyLen = kl (putName name obj) obj.title obj.cls := by rw [hk]; rfl
    have e3 : k.buffer = w.p := by rw [hk]; rfl
    show (((k.seekKey + k.keyLen).toNat : Nat) : Int) + (k.buffer.length : Nat) = _
    rw [e1, e2, e3, hend]
    omega

/-- C07 in a session: a basket fills the space from the old end of the file to the new one, key, rest
of its header and data. -/
theorem C07_basket {env : Env} {path : Str} {ops : List Op} {b b' : WBasket} {n m : Int}
    {f f1 : FileW} (h : Session env path ops f) (hw : b.writeToFile f = (.ok (b', n, m), f1))
    (hb : f1.Below2GB) :
    ∃ x y, f1.trace = f.trace ++ [x, y] ∧ (x.pos : Int) = f.header.end_ ∧
      y.pos = x.pos + x.data.length ∧ (y.pos + y.data.length : Int) = f1.header.end_ := by
  have hi := session_inv h
  obtain ⟨hi1, w, hpay, hk, hf1, -, -, -, hp⟩ := basket_inv hi hw hb
  have hlo := hi.good.lo
  have h26 : 26 ≤ kl b.basket.key.name b.basket.key.title (b! "TBasket") :=
    (keyLenFor_ge _ _ _ false false).1
  have henc : ((b'.basket.key.enc packedNow ++ b'.basket.tail).length : Int) =
      kl b.basket.key.name b.basket.key.title (b! "TBasket") := by
    rw [List.length_append, Basket.tail_length, Int.natCast_add, hk, Key.at_enc_length]
    unfold extra
    rw [if_pos rfl]
    omega
  have e1 : b'.basket.key.seekKey = f.header.end_ := by rw [hk]; rfl
  have e2 : b'.basket.key.keyLen = kl b.basket.key.name b.basket.key.title (b! "TBasket") := by
    rw [hk]; rfl
  have e3 : b'.basket.key.buffer = w.p := by rw [hk]; rfl
  have e4 : b'.basket.key.objLen = w.p.length := by rw [hk]; rfl
  refine ⟨_, _, by rw [hf1]; rfl, ?_, ?_, ?_⟩
  · show ((b'.basket.key.seekKey.toNat : Nat) : Int) = _
    omega
  · show (b'.basket.key.seekKey + b'.basket.key.keyLen).toNat = b'.basket.key.seekKey.toNat +
      (b'.basket.key.enc packedNow ++ b'.basket.tail).length
    rw [e1, e2]
    omega
  · have : f1.header.end_ = f.header.end_ + (b'.basket.key.keyLen + b'.basket.key.objLen) := by
      rw [hf1]; rfl
    show (((b'.basket.key.seekKey + b'.basket.key.keyLen).toNat : Nat) : Int) +
      (b'.basket.key.buffer.length : Nat) = _
    rw [this, e1, e2, e3, e4]
    omega

/-- The hypotheses can be met below the limit (38 bytes of key) ... -/
example : ∃ k m w, Key.newFromBuffer (b! "n") (b! "title") (b! "Cls") 1 [1, 2, 3] demoOpen =
      (.ok k, demoOpen.ended (demoOpen.header.end_ + 41)) ∧ demoOpen.OneSpan ∧
      demoOpen.header.compression = 1 ∧ demoOpen.dir.isBig = false ∧
      k.marshal (WBuffer.new 0) = .ok (m, w) ∧ k.keyLen = 38 ∧ k.nBytes = 41 :=
  ⟨_, _, _, rfl, (session_inv demo_session).good.span, (session_inv demo_session).good.comp,
    (session_inv demo_session).good.dirBig, rfl, by decide +kernel, by decide +kernel⟩

/-- ... and above it (46 bytes). -/
example : ∃ f f' k m w, Key.newFromBuffer (b! "n") (b! "title") (b! "Cls") 1 [1, 2, 3] f =
      (.ok k, f') ∧ f.OneSpan ∧ f.header.compression = 1 ∧ f.dir.isBig = false ∧
      k.marshal (WBuffer.new 0) = .ok (m, w) ∧ k.keyLen = 46 ∧ k.nBytes = 49 :=
  ⟨{ header := { end_ := 3000000000, compression := 1 }, spans := [⟨3000000000, kStartBigFile⟩],
     dir := {}, id := [] }, _, _, _, _, rfl, rfl, rfl, rfl, rfl, by decide +kernel, by decide +kernel⟩

end Verif
