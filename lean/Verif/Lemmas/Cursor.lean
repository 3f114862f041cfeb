import Verif.Spec.Cursor
import Verif.Lemmas.Buf
/-
How reads move the cursor.
-/
namespace Verif

/-- Data kept, cursor not moved back. -/
def Mono {α} (m : Rd α) : Prop :=
  ∀ r a r', r.SkipOk → m r = .ok (a, r') → r'.p = r.p ∧ r.c ≤ r'.c ∧ r'.SkipOk

/-- And the cursor stays inside if it was. -/
def Fwd {α} (m : Rd α) : Prop :=
  ∀ r a r', r.SkipOk → m r = .ok (a, r') →
    r'.p = r.p ∧ r.c ≤ r'.c ∧ r'.SkipOk ∧ (r.c ≤ r.p.length → r'.c ≤ r.p.length)

/-- And the cursor is inside afterwards. -/
def Inside {α} (m : Rd α) : Prop :=
  ∀ r a r', r.SkipOk → m r = .ok (a, r') →
    r'.p = r.p ∧ r.c ≤ r'.c ∧ r'.SkipOk ∧ r'.c ≤ r.p.length

theorem Inside.fwd {α} {m : Rd α} (h : Inside m) : Fwd m := fun r a r' hs he =>
  let ⟨h1, h2, h3, h4⟩ := h r a r' hs he
  ⟨h1, h2, h3, fun _ => h4⟩

theorem Fwd.mono {α} {m : Rd α} (h : Fwd m) : Mono m := fun r a r' hs he =>
  let ⟨h1, h2, h3, _⟩ := h r a r' hs he
  ⟨h1, h2, h3⟩

theorem Fwd.stays {α} {m : Rd α} (h : Fwd m) : StaysInside m := fun r a r' hs hc he =>
  let ⟨h1, h2, h3, h4⟩ := h r a r' hs he
  ⟨h1, h2, h4 hc, h3⟩

theorem Rd.bind_inv {α β} {m : Rd α} {f : α → Rd β} {r : RBuffer} {b r''}
    (h : (m >>= f) r = .ok (b, r'')) : ∃ a r', m r = .ok (a, r') ∧ f a r' = .ok (b, r'') := by
  cases hm : m r with
  | error e => rw [Rd.bind_err hm] at h; exact absurd h (by simp)
  | ok x =>
    obtain ⟨a, r'⟩ := x
    rw [Rd.bind_ok hm] at h
    exact ⟨a, r', rfl, h⟩

theorem Fwd.pure {α} (a : α) : Fwd (Pure.pure a : Rd α) := by
  intro r b r' hs he
  cases he
  exact ⟨rfl, Nat.le_refl _, hs, fun h => h⟩

theorem Inside.failed {α} {m : Rd α} (h : ∀ r x, m r ≠ .ok x) : Inside m :=
  fun r a r' _ he => absurd he (h r (a, r'))

theorem Inside.fail {α} (e : Err) : Inside (Rd.fail e : Rd α) := .failed fun _ _ h => nomatch h
theorem Inside.panic {α} : Inside (Rd.panic : Rd α) := .failed fun _ _ h => nomatch h

theorem Fwd.bind {α β} {m : Rd α} {f : α → Rd β} (h1 : Fwd m) (h2 : ∀ a, Fwd (f a)) :
    Fwd (m >>= f) := by
  intro r b r'' hs he
  obtain ⟨a, r', ha, hb⟩ := Rd.bind_inv he
  obtain ⟨p1, c1, s1, i1⟩ := h1 r a r' hs ha
  obtain ⟨p2, c2, s2, i2⟩ := h2 a r' b r'' s1 hb
  rw [p1] at i2 p2
  exact ⟨p2, Nat.le_trans c1 c2, s2, fun h => i2 (i1 h)⟩

theorem Inside.bind {α β} {m : Rd α} {f : α → Rd β} (h1 : Inside m) (h2 : ∀ a, Fwd (f a)) :
    Inside (m >>= f) := by
  intro r b r'' hs he
  obtain ⟨a, r', ha, hb⟩ := Rd.bind_inv he
  obtain ⟨p1, c1, s1, i1⟩ := h1 r a r' hs ha
  obtain ⟨p2, c2, s2, i2⟩ := h2 a r' b r'' s1 hb
  rw [p1] at i2 p2
  exact ⟨p2, Nat.le_trans c1 c2, s2, i2 i1⟩

theorem Mono.bindInside {α β} {m : Rd α} {f : α → Rd β} (h1 : Mono m) (h2 : ∀ a, Inside (f a)) :
    Inside (m >>= f) := by
  intro r b r'' hs he
  obtain ⟨a, r', ha, hb⟩ := Rd.bind_inv he
  obtain ⟨p1, c1, s1⟩ := h1 r a r' hs ha
  obtain ⟨p2, c2, s2, i2⟩ := h2 a r' b r'' s1 hb
  rw [p1] at i2 p2
  exact ⟨p2, Nat.le_trans c1 c2, s2, i2⟩

theorem Fwd.ite {α} {c : Prop} [Decidable c] {m n : Rd α} (h1 : Fwd m) (h2 : Fwd n) :
    Fwd (if c then m else n) := by split <;> assumption

theorem Inside.ite {α} {c : Prop} [Decidable c] {m n : Rd α} (h1 : Inside m) (h2 : Inside n) :
    Inside (if c then m else n) := by split <;> assumption

theorem Inside.take (n : Nat) : Inside (Rd.take n) := by
  intro r a r' hs he
  unfold Rd.take at he
  split at he
  · next h =>
    cases he
    exact ⟨rfl, Nat.le_add_right _ _, hs, h⟩
  · cases he

theorem Inside.uint (k : Nat) : Inside (Rd.uint k) := (Inside.take k).bind fun _ => .pure _
theorem Inside.sint (k : Nat) : Inside (Rd.sint k) := (Inside.take k).bind fun _ => .pure _
theorem Inside.u8 : Inside Rd.u8 := .uint 1
theorem Inside.u16 : Inside Rd.u16 := .uint 2
theorem Inside.u32 : Inside Rd.u32 := .uint 4
theorem Inside.u64 : Inside Rd.u64 := .uint 8
theorem Inside.i8 : Inside Rd.i8 := .sint 1
theorem Inside.i16 : Inside Rd.i16 := .sint 2
theorem Inside.i32 : Inside Rd.i32 := .sint 4
theorem Inside.i64 : Inside Rd.i64 := .sint 8
theorem Inside.f32 : Inside Rd.f32 := .uint 4
theorem Inside.f64 : Inside Rd.f64 := .uint 8
theorem Inside.bool : Inside Rd.bool := Inside.i8.bind fun _ => .pure _

theorem Fwd.times {α} {m : Rd α} (h : Fwd m) (n : Nat) : Fwd (Rd.times n m) := by
  induction n with
  | zero => exact .pure _
  | succ n ih => exact h.bind fun _ => ih.bind fun _ => .pure _

theorem Fwd.mapList {α β} {f : α → Rd β} (h : ∀ a, Fwd (f a)) (l : List α) :
    Fwd (Rd.mapList f l) := by
  induction l with
  | nil => exact .pure _
  | cons a as ih => exact (h a).bind fun _ => ih.bind fun _ => .pure _

theorem Fwd.ensureMax (a b : Int) : Fwd (Rd.ensureMax a b) := .ite (Inside.fail _).fwd (.pure _)
theorem Fwd.ensureMin (a b : Int) : Fwd (Rd.ensureMin a b) := .ite (Inside.fail _).fwd (.pure _)

theorem Fwd.setSkip {s : Option Int} (h : ∀ n, s = some n → 0 ≤ n) : Fwd (Rd.setSkip s) := by
  intro r a r' _ he
  cases he
  exact ⟨rfl, Nat.le_refl _, h, fun h => h⟩

theorem Fwd.ref (k : Nat) : Fwd (Rd.ref k) := by
  intro r a r' hs he
  cases he
  exact ⟨rfl, Nat.le_refl _, hs, fun h => h⟩

theorem Fwd.pos : Fwd Rd.pos := by
  intro r a r' hs he
  cases he
  exact ⟨rfl, Nat.le_refl _, hs, fun h => h⟩

theorem Fwd.setRef (k : Nat) (c : Str) : Fwd (Rd.setRef k c) := by
  intro r a r' hs he
  cases he
  exact ⟨rfl, Nat.le_refl _, hs, fun h => h⟩

theorem Fwd.orPanic {α} (o : Option α) : Fwd (Rd.orPanic o) := by
  cases o
  · exact Inside.panic.fwd
  · exact .pure _

/-- Proves that a `do` block goes forward: its statements one by one, join points once. -/
syntax "fwd" : tactic
macro_rules | `(tactic| fwd) => `(tactic| repeat' first
  | (extract_lets jp
     suffices hjp : ∀ a, Fwd (jp a) by
       clear_value jp
       fwd
     intro a
     dsimp -zeta only [jp]
     clear jp)
  | with_reducible exact Fwd.pure _
  | with_reducible exact Inside.u8.fwd | with_reducible exact Inside.u16.fwd
  | with_reducible exact Inside.u32.fwd | with_reducible exact Inside.i8.fwd
  | with_reducible exact Inside.i16.fwd | with_reducible exact Inside.i32.fwd
  | with_reducible exact Inside.i64.fwd | with_reducible exact Inside.f32.fwd
  | with_reducible exact Inside.f64.fwd | with_reducible exact Inside.bool.fwd
  | with_reducible exact (Inside.take _).fwd | with_reducible exact (Inside.fail _).fwd
  | with_reducible exact Inside.panic.fwd | with_reducible exact Fwd.ensureMax _ _
  | with_reducible exact Fwd.ensureMin _ _ | with_reducible exact Fwd.orPanic _
  | with_reducible exact Fwd.pos | with_reducible exact Fwd.ref _
  | with_reducible exact Fwd.setRef _ _
  | with_reducible assumption
  | with_reducible apply_assumption
  | with_reducible refine Fwd.times ?_ _
  | with_reducible refine Fwd.mapList (fun _ => ?_) _
  | with_reducible refine Fwd.bind ?_ fun _ => ?_
  | with_reducible refine Fwd.ite ?_ ?_
  | split)

theorem Inside.string : Inside Rd.string := by
  unfold Rd.string
  refine Inside.u8.bind fun b => ?_
  fwd

/-- Peeking at the four bytes and coming back. -/
theorem Inside.header : Inside Rd.header := by
  intro r a r'' hs he
  unfold Rd.header at he
  rw [Rd.bind_ok (a := r.c + r.offset) (r' := r) rfl] at he
  obtain ⟨b, r1, hb, he⟩ := Rd.bind_inv he
  obtain ⟨p1, c1, s1, i1⟩ := Inside.u32 r b r1 hs hb
  have ho : r1.offset = r.offset := by
    have hb' : Rd.uint 4 r = .ok (b, r1) := hb
    obtain ⟨x, y, hx, hy⟩ := Rd.bind_inv hb'
    unfold Rd.take at hx
    split at hx
    · cases hx; cases hy; rfl
    · cases hx
  split at he
  · obtain ⟨v, r2, hv, he⟩ := Rd.bind_inv he
    obtain ⟨p2, c2, s2, i2⟩ := Inside.u16 r1 v r2 s1 hv
    cases he
    rw [p1] at i2 p2
    exact ⟨p2, Nat.le_trans c1 c2, s2, i2⟩
  · have hset : Rd.setPos ((r.c + r.offset : Nat) : Int) r1 = .ok ((), { r1 with c := r.c }) := by
      unfold Rd.setPos
      rw [if_pos (by omega)]
      have : (((r.c + r.offset : Nat) : Int) - r1.offset).toNat = r.c := by omega
      rw [this]
    rw [Rd.bind_ok hset] at he
    obtain ⟨v, r2, hv, he⟩ := Rd.bind_inv he
    obtain ⟨p2, c2, s2, i2⟩ := Inside.u16 { r1 with c := r.c } v r2 s1 hv
    cases he
    have p2 : r''.p = r1.p := p2
    have i2 : r''.c ≤ r1.p.length := i2
    rw [p1] at i2 p2
    exact ⟨p2, c2, s2, i2⟩

theorem Inside.skipVersion (cls : Str) : Inside (Rd.skipVersion cls) := by
  unfold Rd.skipVersion
  refine Inside.i16.bind fun v => ?_
  have h : Fwd (if 1 < v ∨ cls = [] then pure () else Rd.panic : Rd Unit) :=
    .ite (.pure _) Inside.panic.fwd
  by_cases h1 : v < 0
  · simp only [h1, if_true]
    exact (Inside.u16.bind fun _ => (Inside.u16.bind fun _ => h).fwd).fwd
  · simp only [h1, if_false]
    exact h

theorem Rd.skipBy_eq {r : RBuffer} {s : Int} (h : 0 ≤ s) :
    Rd.skipBy s r = .ok ((), { r with c := r.c + s.toNat }) := by
  unfold Rd.skipBy Rd.setPos
  rw [if_pos (by omega)]
  have : (((r.c + r.offset : Nat) : Int) + s - r.offset).toNat = r.c + s.toNat := by omega
  rw [this]

/-- Peeking at one byte. -/
theorem Rd.peek {α} {r : RBuffer} (h : r.c < r.p.length) (f : Nat → Rd α) :
    (do let b ← Rd.u8; Rd.rewind 1; f b : Rd α) r = f (r.p[r.c]'h).toNat r := by
  have hu : Rd.u8 r = .ok ((r.p[r.c]'h).toNat, { r with c := r.c + 1 }) := by
    have ht : Rd.take 1 r = .ok ([r.p[r.c]'h], { r with c := r.c + 1 }) := by
      unfold Rd.take
      rw [if_pos (by omega)]
      rw [List.drop_eq_getElem_cons h]
      rfl
    show (Rd.take 1 >>= fun b => Pure.pure (beNat b)) r = _
    rw [Rd.bind_ok ht]
    simp [Rd.pure_eq, beNat]
  rw [Rd.bind_ok hu]
  have hr : Rd.rewind 1 ({ r with c := r.c + 1 } : RBuffer) = .ok ((), r) := by
    unfold Rd.rewind Rd.setPos
    have h0 : (0 : Int) ≤ ((r.c + 1 + r.offset : Nat) : Int) - 1 - r.offset := by omega
    have h1 : (((r.c + 1 + r.offset : Nat) : Int) - 1 - r.offset).toNat = r.c := by omega
    simp only [h0, h1, if_true]
  rw [Rd.bind_ok hr]

/-- All that skipping an optional header can do. -/
theorem Rd.doSkipHeader_eq (r : RBuffer) (hs : r.SkipOk) :
    Rd.doSkipHeader r = .ok ((), r) ∨
      ∃ s, r.skip = some s ∧ s ≤ (r.p.length : Int) - r.c ∧
        Rd.doSkipHeader r = .ok ((), { r with c := r.c + s.toNat }) := by
  unfold Rd.doSkipHeader
  cases hk : r.skip with
  | none => exact .inl rfl
  | some s =>
    have h0 := hs s hk
    simp only
    by_cases hl : (r.p.length : Int) - r.c < s
    · rw [if_pos hl]; exact .inl rfl
    · rw [if_neg hl]
      by_cases h1 : 1 < (r.p.length : Int) - r.c ∧ 1 < s
      · rw [if_pos h1, Rd.peek (by omega) (fun b => if b ≠ 64 then Pure.pure () else Rd.skipBy s)]
        split
        · exact .inl rfl
        · exact .inr ⟨s, rfl, by omega, by rw [Rd.skipBy_eq h0, hk]⟩
      · rw [if_neg h1]
        exact .inr ⟨s, rfl, by omega, by rw [Rd.skipBy_eq h0, hk]⟩

theorem Fwd.doSkipHeader : Fwd Rd.doSkipHeader := by
  intro r a r' hs he
  rcases Rd.doSkipHeader_eq r hs with h | ⟨s, hk, hl, h⟩
  · rw [h] at he; cases he
    exact ⟨rfl, Nat.le_refl _, hs, fun h => h⟩
  · rw [h] at he; cases he
    have := hs s hk
    exact ⟨rfl, Nat.le_add_right _ _, hs, fun _ => by show r.c + s.toNat ≤ r.p.length; omega⟩

theorem Mono.takeUntilNul (n : Nat) : Mono (Rd.takeUntilNul n) := by
  intro r a r' hs he
  unfold Rd.takeUntilNul at he
  simp only at he
  split at he
  · cases he
    exact ⟨rfl, by show r.c ≤ r.c + _ + 1; omega, hs⟩
  · cases he

theorem Mono.cstring (n : Nat) : Mono (Rd.cstring n) := by
  intro r a r'' hs he
  obtain ⟨b, r', hb, he⟩ := Rd.bind_inv he
  obtain ⟨p1, c1, s1⟩ := Mono.takeUntilNul n r b r' hs hb
  split at he <;> (cases he; exact ⟨p1, c1, s1⟩)

theorem Fwd.stringItem : Fwd Rd.stringItem := Fwd.doSkipHeader.bind fun _ => Inside.string.fwd

theorem Fwd.vec {α} {m : Rd α} (h : Fwd m) : Fwd (Rd.vec m) :=
  Fwd.doSkipHeader.bind fun _ => Inside.i32.fwd.bind fun _ => .ite Inside.panic.fwd
    ((Fwd.setSkip fun n (h : none = some n) => nomatch h).bind fun _ => h.times _)

theorem Ty.fwd : (t : Ty) → Fwd t.unmarshal
  | .bool => Inside.bool.fwd
  | .i8 => Inside.i8.fwd
  | .i16 => Inside.i16.fwd
  | .i32 => Inside.i32.fwd
  | .i64 => Inside.i64.fwd
  | .u8 => Inside.u8.fwd
  | .u16 => Inside.u16.fwd
  | .u32 => Inside.u32.fwd
  | .u64 => Inside.u64.fwd
  | .f32 => Inside.f32.fwd
  | .f64 => Inside.f64.fwd
  | .string => Fwd.stringItem
  | .vec t => Fwd.vec t.fwd
  | .arr n t => t.fwd.times n


end Verif
