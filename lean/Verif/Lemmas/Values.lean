import Verif.Model.Values
import Verif.Lemmas.RoundTrip
/-
Encodings of strings and of nested values.
-/
namespace Verif

/-- Encoding of a string shorter than 2^31. -/
def encStr (s : Str) : List Byte :=
  if s.length < 255 then beBytes 1 s.length ++ s
  else beBytes 1 255 ++ (beBytes 4 s.length ++ s)

theorem encStr_length (s : Str) :
    (encStr s).length = if s.length < 255 then s.length + 1 else s.length + 5 := by
  unfold encStr; split <;> simp <;> omega

theorem encStr_ne_nil (s : Str) : encStr s ≠ [] := by
  intro h
  have := encStr_length s
  rw [h] at this
  split at this <;> simp at this

theorem Writes.string {s : Str} (h : s.length < 2 ^ 31) : Writes (Wr.string s) (encStr s) () := by
  have hm : s.length % 2 ^ 32 = s.length := Nat.mod_eq_of_lt (by omega)
  have ht : toSigned 4 s.length = (s.length : Int) :=
    toSigned_of_lt (by omega)
  unfold Wr.string encStr
  simp only [hm, ht]
  by_cases hl : s.length < 255
  · rw [if_pos (by omega), if_pos hl, wrapI_ofNat (by omega)]
    refine Writes.bind (Writes.bytes _) ?_
    by_cases h0 : s.length = 0
    · have : s = [] := by simpa using h0
      subst this
      simpa using Writes.pure ()
    · rw [if_pos (by omega)]
      exact Writes.bytes _
  · rw [if_neg (by omega), if_neg hl, wrapI_ofNat (by omega)]
    exact Writes.bind (Writes.bytes _) (Writes.bind (Writes.bytes _) (Writes.bytes _))

theorem Reads.string {s : Str} (h : s.length < 2 ^ 32) (hu : utf8 s = true) :
    Reads Rd.string (encStr s) s := by
  have key : ∀ n, n = s.length → Reads (if n = 0 then (Pure.pure [] : Rd Str) else (do
      let buf ← Rd.take n
      if utf8 buf then Pure.pure buf else Pure.pure [])) s s := by
    intro n hn
    subst hn
    by_cases h0 : s.length = 0
    · have : s = [] := by simpa using h0
      subst this
      simpa using Reads.pure _
    · rw [if_neg h0]
      have := Reads.bind (Reads.take s)
        (f := fun buf => if utf8 buf then (Pure.pure buf : Rd Str) else Pure.pure [])
        (b2 := []) (b := s) (by simp only [hu, if_true]; exact Reads.pure _)
      simpa using this
  unfold Rd.string encStr
  by_cases hl : s.length < 255
  · rw [if_pos hl]
    refine Reads.bind (Reads.uint (k := 1) (by omega)) ?_
    rw [if_neg (by omega)]
    exact Reads.bind (b1 := []) (Reads.pure s.length) (key s.length rfl)
  · rw [if_neg hl]
    refine Reads.bind (Reads.uint (k := 1) (by omega)) ?_
    rw [if_pos rfl]
    exact Reads.bind (Reads.uint (k := 4) (by omega)) (key s.length rfl)

theorem Reads.doSkipHeader : Reads Rd.doSkipHeader [] () := by
  intro r hs _ _
  simp [Rd.doSkipHeader, hs]

theorem Reads.setSkipNone : Reads (Rd.setSkip none) [] () := by
  intro r hs _ _
  cases r
  simp at hs
  simp [Rd.setSkip, hs, RBuffer.adv]

theorem Reads.bool (v : Bool) : Reads Rd.bool (beBytes 1 (if v then 1 else 0)) v := by
  have := Reads.bind (Reads.sint (k := 1) (v := if v then 1 else 0) (by decide)
      (by cases v <;> decide))
    (f := fun v : Int => (Pure.pure (v != 0) : Rd Bool)) (Reads.pure _)
  cases v <;> exact this

theorem Reads.stringItem {s : Str} (h : s.length < 2 ^ 32) (hu : utf8 s = true) :
    Reads Rd.stringItem (encStr s) s :=
  Reads.bind (b1 := []) Reads.doSkipHeader (Reads.string h hu)

theorem Reads.i32_ofNat {n : Nat} (h : n < 2 ^ 31) : Reads Rd.i32 (beBytes 4 n) (n : Int) := by
  have := Reads.sint (k := 4) (v := (n : Int)) (by decide) ⟨by omega, by omega⟩
  rwa [wrapI_ofNat (k := 4) (by omega)] at this

theorem Writes.i32_ofNat {n : Nat} (h : n < 2 ^ 31) :
    Writes (Wr.i32 (toSigned 4 (n % 2 ^ 32))) (beBytes 4 n) () := by
  have hm : n % 2 ^ 32 = n := Nat.mod_eq_of_lt (by omega)
  have ht : toSigned 4 n = (n : Int) := toSigned_of_lt (by omega)
  rw [hm, ht, Wr.i32, wrapI_ofNat (k := 4) (by omega)]
  exact Writes.bytes _

/-- Encoding of a counted list. -/
def encVec {α} (enc : α → List Byte) (l : List α) : List Byte :=
  beBytes 4 l.length ++ l.flatMap enc

theorem Writes.vec {α} {f : α → Wr Unit} {enc : α → List Byte} {l : List α}
    (hl : l.length < 2 ^ 31) (h : ∀ a ∈ l, Writes (f a) (enc a) ()) :
    Writes (Wr.vec f l) (encVec enc l) () :=
  Writes.bind (Writes.i32_ofNat hl) (Writes.each h)

theorem Reads.vec {α} {m : Rd α} {enc : α → List Byte} {l : List α}
    (hl : l.length < 2 ^ 31) (h : ∀ a ∈ l, Reads m (enc a) a) :
    Reads (Rd.vec m) (encVec enc l) l := by
  refine Reads.bind (b1 := []) Reads.doSkipHeader (Reads.bind (Reads.i32_ofNat hl) ?_)
  rw [if_neg (by omega)]
  exact Reads.bind (b1 := []) Reads.setSkipNone (Reads.times h)

theorem Reads.arr {α} {m : Rd α} {enc : α → List Byte} {l : List α} {n : Nat}
    (hl : l.length = n) (h : ∀ a ∈ l, Reads m (enc a) a) :
    Reads (Rd.times n m) ((l.take n).flatMap enc) l := by
  rw [← hl, List.take_length]
  exact Reads.times h

/-! ### NUL terminated strings -/

theorem untilNul_append {s : Str} (hs : (0 : Byte) ∉ s) (t : List Byte) :
    Rd.untilNul (s ++ 0 :: t) = s := by
  induction s with
  | nil => simp [Rd.untilNul]
  | cons b s ih =>
    simp only [List.mem_cons, not_or] at hs
    simp [Rd.untilNul, ih hs.2, Ne.symm hs.1]

theorem untilNul_self {s : Str} (hs : (0 : Byte) ∉ s) : Rd.untilNul s = s := by
  induction s with
  | nil => rfl
  | cons b s ih =>
    simp only [List.mem_cons, not_or] at hs
    simp [Rd.untilNul, ih hs.2, Ne.symm hs.1]

theorem Reads.cstring {s : Str} (n : Nat) (hs : (0 : Byte) ∉ s) (hu : utf8 s = true)
    (hn : s.length ≤ n) : Reads (Rd.cstring n) (s ++ [0]) s := by
  have h : Reads (Rd.takeUntilNul n) (s ++ [0]) s := by
    intro r _ hc hp
    obtain ⟨t, ht⟩ := hp
    have hlen : s.length + 1 ≤ r.p.length - r.c := by
      have := congrArg List.length ht
      simp [RBuffer.rest] at this
      omega
    unfold Rd.takeUntilNul
    rw [if_pos (by omega)]
    have hd : r.p.drop r.c = s ++ 0 :: t := by
      have : r.p.drop r.c = s ++ [0] ++ t := ht.symm
      simpa using this
    have hp : Rd.untilNul ((r.p.drop r.c).take (min (r.c + n) r.p.length - r.c)) = s := by
      rw [hd]
      have hm : s.length ≤ min (r.c + n) r.p.length - r.c := by omega
      obtain ⟨j, hj⟩ := Nat.exists_eq_add_of_le hm
      rw [hj, List.take_length_add_append]
      cases j with
      | zero => simpa using untilNul_self hs
      | succ j => simpa using untilNul_append hs _
    simp only [hp]
    simp [RBuffer.adv, Nat.add_assoc]
  have := Reads.bind h (f := fun buf => if utf8 buf then (Pure.pure buf : Rd Str) else Pure.pure [])
    (b2 := []) (b := s) (by simp only [hu, if_true]; exact Reads.pure _)
  simpa [Rd.cstring] using this

theorem Writes.cstring (s : Str) : Writes (Wr.cstring s) (s ++ [0]) () :=
  Writes.bind (Writes.bytes s) (Writes.bytes [0])

/-! ### Nested values -/

/-- Encoding of a value. -/
def Ty.enc : (t : Ty) → t.Val → List Byte
  | .bool => fun v : Bool => beBytes 1 (if v then 1 else 0)
  | .i8 => fun v => beBytes 1 (wrapI 1 v)
  | .i16 => fun v => beBytes 2 (wrapI 2 v)
  | .i32 => fun v => beBytes 4 (wrapI 4 v)
  | .i64 => fun v => beBytes 8 (wrapI 8 v)
  | .u8 => beBytes 1
  | .u16 => beBytes 2
  | .u32 => beBytes 4
  | .u64 => beBytes 8
  | .f32 => beBytes 4
  | .f64 => beBytes 8
  | .string => encStr
  | .vec t => encVec t.enc
  | .arr n t => fun l : List t.Val => (l.take n).flatMap t.enc

theorem Ty.writes_put : (t : Ty) → (v : t.Val) → t.Ok v → Writes (t.put v) (t.enc v) ()
  | .bool, _, _ => Writes.bytes _
  | .i8, _, _ => Writes.bytes _
  | .i16, _, _ => Writes.bytes _
  | .i32, _, _ => Writes.bytes _
  | .i64, _, _ => Writes.bytes _
  | .u8, _, _ => Writes.bytes _
  | .u16, _, _ => Writes.bytes _
  | .u32, _, _ => Writes.bytes _
  | .u64, _, _ => Writes.bytes _
  | .f32, _, _ => Writes.bytes _
  | .f64, _, _ => Writes.bytes _
  | .string, _, h => Writes.string h.1
  | .vec t, _, h => Writes.vec h.1 fun v hv => t.writes_put v (h.2 v hv)
  | .arr _ t, _, h => Writes.each fun v hv => t.writes_put v (h.2 v (List.mem_of_mem_take hv))

theorem Ty.reads_unmarshal : (t : Ty) → (v : t.Val) → t.Ok v → Reads t.unmarshal (t.enc v) v
  | .bool, v, _ => Reads.bool v
  | .i8, _, h => Reads.sint (by decide) h
  | .i16, _, h => Reads.sint (by decide) h
  | .i32, _, h => Reads.sint (by decide) h
  | .i64, _, h => Reads.sint (by decide) h
  | .u8, _, h => Reads.uint h
  | .u16, _, h => Reads.uint h
  | .u32, _, h => Reads.uint h
  | .u64, _, h => Reads.uint h
  | .f32, _, h => Reads.uint h
  | .f64, _, h => Reads.uint h
  | .string, _, h => Reads.stringItem (Nat.lt_trans h.1 (by decide)) h.2
  | .vec t, _, h => Reads.vec h.1 fun v hv => t.reads_unmarshal v (h.2 v hv)
  | .arr _ t, _, h => Reads.arr h.1 fun v hv => t.reads_unmarshal v (h.2 v hv)

end Verif
