import Verif.Spec.Format
import Verif.Spec.TreeRecords
import Verif.Lemmas.TreeRecords
/-
The writer appends the bytes of the format (Spec/Format.lean).
-/
namespace Verif

/-- The writer's tables say what `m` says. -/
structure Marked (w : WBuffer) (m : Marks) : Prop where
  wf : w.WF
  objects : ∀ a, w.refsP.lookup a = m.objects a
  classes : ∀ s, w.refsS.lookup s = (m.classes s).map (2 ^ 31 + ·)
  small : ∀ s k, m.classes s = some k → k < 2 ^ 31

theorem Marked.app {w : WBuffer} {m : Marks} (h : Marked w m) (bs : List Byte) : Marked (w.app bs) m :=
  ⟨h.wf.app bs, h.objects, h.classes, h.small⟩

/-- `p` exists everywhere. -/
def Part.Total (p : Part) : Prop := ∀ pos m, ∃ bs m', p pos m = some (bs, m')

/-- `wr` does not take anything away. -/
def Wr.Grows {α} (wr : Wr α) : Prop := ∀ (w : WBuffer) a w', w.WF → w.p ≠ [] → wr w = .ok (a, w') →
  w'.WF ∧ w'.offset = w.offset ∧ w.c ≤ w'.c

/-- On a buffer that is not empty, `wr` appends the bytes of `p`, as long as positions have 30 bits; and if those of
the result have, those of `p` have. -/
structure Streams {α} (wr : Wr α) (p : Part) : Prop where
  total : p.Total
  run : ∀ (w : WBuffer) (m : Marks) (bs : List Byte) (m' : Marks), Marked w m → w.p ≠ [] →
    p (w.c + w.offset) m = some (bs, m') → w.c + w.offset + bs.length < 2 ^ 30 →
    ∃ a w', wr w = .ok (a, w') ∧ w'.p = w.p ++ bs ∧ w'.offset = w.offset ∧ Marked w' m'
  grows : wr.Grows
  fits : ∀ (w : WBuffer) (m : Marks) (bs : List Byte) (m' : Marks), Marked w m → w.p ≠ [] →
    p (w.c + w.offset) m = some (bs, m') → ∀ a w', wr w = .ok (a, w') → w'.c + w'.offset < 2 ^ 30 →
    w.c + w.offset + bs.length < 2 ^ 30

theorem WBuffer.WF.ne {w w' : WBuffer} (h : w.WF) (h' : w'.WF) (hne : w.p ≠ []) (hc : w.c ≤ w'.c) : w'.p ≠ [] := by
  have h1 : w.c = w.p.length := h
  have h2 : w'.c = w'.p.length := h'
  have h3 : 0 < w.p.length := List.length_pos_iff.2 hne
  exact List.length_pos_iff.1 (by omega)

theorem Wr.bind_back {α β} {m : Wr α} {f : α → Wr β} {w : WBuffer} {r} (h : (m >>= f) w = .ok r) :
    ∃ a w1, m w = .ok (a, w1) ∧ f a w1 = .ok r := by
  cases hm : m w with
  | error e => rw [Wr.bind_err hm] at h; cases h
  | ok x => rw [Wr.bind_ok (a := x.1) (w' := x.2) hm] at h; exact ⟨x.1, x.2, rfl, h⟩

theorem Wr.Grows.bind {α β} {m : Wr α} {f : α → Wr β} (h1 : m.Grows) (h2 : ∀ a, (f a).Grows) : (m >>= f).Grows := by
  intro w b w' hw hne h
  obtain ⟨a, w1, e1, e2⟩ := Wr.bind_back h
  obtain ⟨g1, g2, g3⟩ := h1 w a w1 hw hne e1
  obtain ⟨k1, k2, k3⟩ := h2 a w1 b w' g1 (hw.ne g1 hne g3) e2
  exact ⟨k1, k2.trans g2, Nat.le_trans g3 k3⟩

theorem Wr.Grows.of {α} {wr : Wr α} {bs : List Byte} {a : α} (h : WritesNE wr bs a) : wr.Grows := by
  intro w b w' hw hne e
  rw [h w hw hne] at e
  cases e
  exact ⟨hw.app bs, rfl, by simp⟩

theorem Wr.Grows.pure {α} (a : α) : Wr.Grows (Pure.pure a) := by
  intro w b w' hw _ e
  cases e
  exact ⟨hw, rfl, Nat.le_refl _⟩

theorem Wr.Grows.pos : Wr.pos.Grows := by
  intro w b w' hw _ e
  cases e
  exact ⟨hw, rfl, Nat.le_refl _⟩

theorem Wr.Grows.refP (a : Nat) : (Wr.refP a).Grows := by
  intro w b w' hw _ e
  cases e
  exact ⟨hw, rfl, Nat.le_refl _⟩

theorem Wr.Grows.refS (a : Str) : (Wr.refS a).Grows := by
  intro w b w' hw _ e
  cases e
  exact ⟨hw, rfl, Nat.le_refl _⟩

theorem Wr.Grows.setRefP (a k : Nat) : (Wr.setRefP a k).Grows := by
  intro w b w' hw _ e
  cases e
  exact ⟨hw, rfl, Nat.le_refl _⟩

theorem Wr.Grows.setRefS (a : Str) (k : Nat) : (Wr.setRefS a k).Grows := by
  intro w b w' hw _ e
  cases e
  exact ⟨hw, rfl, Nat.le_refl _⟩

theorem Wr.Grows.bytes (bs : List Byte) : (Wr.bytes bs).Grows := Wr.Grows.of (a := ()) (Writes.bytes bs).ne

theorem Wr.Grows.inPlace (bs : List Byte) (pos : Nat) : (Wr.inPlace bs pos).Grows := by
  intro w b w' hw _ e
  unfold Wr.inPlace at e
  split at e
  · cases e
  · split at e
    · next h =>
      cases e
      refine ⟨?_, rfl, Nat.le_refl _⟩
      have : w.c = w.p.length := hw
      show w.c = (_ ++ _ ++ _ : List Byte).length
      simp only [List.length_append, List.length_take, List.length_drop]
      omega
    · cases e

theorem Wr.Grows.drop {α} {wr : Wr α} (h : wr.Grows) : (Wr.drop wr).Grows := h.bind fun _ => Wr.Grows.pure _

theorem Wr.Grows.lenMinusOne : Wr.lenMinusOne.Grows := Wr.Grows.of (a := ()) WritesNE.lenMinusOne

theorem Wr.Grows.framed {vers : Int} {body : Wr Unit} (h : body.Grows) : (Wr.framed vers body).Grows :=
  (Wr.Grows.pos.bind fun _ => (Wr.Grows.bytes _).bind fun _ => (Wr.Grows.bytes _).bind fun _ => Wr.Grows.pure _).bind
    fun _ => h.bind fun _ => Wr.Grows.pos.bind fun _ => (Wr.Grows.inPlace _ _).bind fun _ => Wr.Grows.pure _

theorem Wr.Grows.writeClass (beg : Nat) {o : WObj} (h : o.marshal.Grows) : (Wr.writeClass beg o).Grows := by
  refine Wr.Grows.lenMinusOne.bind fun _ => Wr.Grows.pos.bind fun _ => (Wr.Grows.refP _).bind fun r => ?_
  cases r with
  | some => exact (Wr.Grows.bytes _).bind fun _ => Wr.Grows.pos.bind fun _ => Wr.Grows.pure _
  | none =>
    refine (Wr.Grows.refS _).bind fun r => ?_
    cases r with
    | some =>
      exact (Wr.Grows.bytes _).bind fun _ => h.drop.bind fun _ => (Wr.Grows.setRefP _ _).bind fun _ =>
        Wr.Grows.pos.bind fun _ => Wr.Grows.pure _
    | none =>
      exact (Wr.Grows.bytes _).bind fun _ => ((Wr.Grows.bytes _).bind fun _ => Wr.Grows.bytes _).bind fun _ =>
        (Wr.Grows.setRefS _ _).bind fun _ => (Wr.Grows.setRefP _ _).bind fun _ => h.drop.bind fun _ =>
        Wr.Grows.pos.bind fun _ => Wr.Grows.pure _

theorem Wr.Grows.objectAny {o : WObj} (h : o.marshal.Grows) : (Wr.objectAny o).Grows :=
  Wr.Grows.pos.bind fun _ => Wr.Grows.lenMinusOne.bind fun _ => (Wr.Grows.bytes _).bind fun _ =>
    (Wr.Grows.writeClass _ h).bind fun _ => (Wr.Grows.inPlace _ _).bind fun _ => Wr.Grows.pos.bind fun _ =>
    Wr.Grows.pure _

theorem Streams.raw {α} {wr : Wr α} {bs : List Byte} {a : α} (h : WritesNE wr bs a) : Streams wr (.raw bs) := by
  refine ⟨fun _ m => ⟨bs, m, rfl⟩, fun w m bs' m' hm hne hp _ => ?_, Wr.Grows.of h,
    fun w m bs' m' hm hne hp a w' e hlt => ?_⟩
  · cases hp
    exact ⟨a, w.app bs, h w hm.wf hne, rfl, rfl, hm.app bs⟩
  · cases hp
    rw [h w hm.wf hne] at e
    cases e
    simp only [WBuffer.app_c, WBuffer.app_offset] at hlt
    omega

theorem Streams.nil : Streams (Pure.pure () : Wr Unit) (.seq []) := Streams.raw (Writes.pure ()).ne

theorem Part.seq_one (p : Part) : Part.seq [p] = p := by
  funext pos m
  simp only [Part.seq, Part.raw]
  cases p pos m with
  | none => rfl
  | some r => simp

theorem Part.seq_cons_some {p : Part} {ps : List Part} {pos : Nat} {m : Marks} {r} 
    (h : Part.seq (p :: ps) pos m = some r) : ∃ a m1 b m2, p pos m = some (a, m1) ∧
      Part.seq ps (pos + a.length) m1 = some (b, m2) ∧ r = (a ++ b, m2) := by
  simp only [Part.seq] at h
  cases hp : p pos m with
  | none => rw [hp] at h; cases h
  | some x =>
    obtain ⟨a, m1⟩ := x
    rw [hp] at h
    cases hq : Part.seq ps (pos + a.length) m1 with
    | none => simp [hq] at h
    | some y =>
      obtain ⟨b, m2⟩ := y
      simp [hq] at h
      exact ⟨a, m1, b, m2, rfl, hq, h.symm⟩

theorem Part.seq_cons_eq {p : Part} {ps : List Part} {pos : Nat} {m m1 m2 : Marks} {a b : List Byte}
    (h1 : p pos m = some (a, m1)) (h2 : Part.seq ps (pos + a.length) m1 = some (b, m2)) :
    Part.seq (p :: ps) pos m = some (a ++ b, m2) := by
  simp only [Part.seq, h1]
  simp [h2]

theorem Part.Total.cons {p : Part} {ps : List Part} (h1 : p.Total) (h2 : (Part.seq ps).Total) :
    (Part.seq (p :: ps)).Total := by
  intro pos m
  obtain ⟨a, m1, h1⟩ := h1 pos m
  obtain ⟨b, m2, h2⟩ := h2 (pos + a.length) m1
  exact ⟨_, _, Part.seq_cons_eq h1 h2⟩

theorem Streams.cons {α β} {wr : Wr α} {wr' : Wr β} {p : Part} {ps : List Part} (h1 : Streams wr p)
    (h2 : Streams wr' (.seq ps)) : Streams (wr >>= fun _ => wr') (.seq (p :: ps)) := by
  refine ⟨h1.total.cons h2.total, fun w m bs m' hm hne hp hlt => ?_, h1.grows.bind fun _ => h2.grows,
    fun w m bs m' hm hne hp y w2 e hlt => ?_⟩
  · obtain ⟨a, m1, b, m2, e1, e2, e3⟩ := Part.seq_cons_some hp
    cases e3
    rw [List.length_append] at hlt
    obtain ⟨x, w1, r1, p1, o1, k1⟩ := h1.run w m a m1 hm hne e1 (by omega)
    have hc : w1.c = w.c + a.length := by
      rw [show w1.c = w1.p.length from k1.wf, p1, List.length_append, ← show w.c = w.p.length from hm.wf]
    obtain ⟨y, w2, r2, p2, o2, k2⟩ := h2.run w1 m1 b _ k1 (by rw [p1]; simp [hne])
      (by rw [hc, o1, ← e2]; congr 1; omega) (by rw [hc, o1]; omega)
    exact ⟨y, w2, by rw [Wr.bind_ok r1, r2], by rw [p2, p1, List.append_assoc], o2.trans o1, k2⟩
  · obtain ⟨a, m1, b, m2, e1, e2, e3⟩ := Part.seq_cons_some hp
    cases e3
    rw [List.length_append]
    obtain ⟨x, w1, r1, r2⟩ := Wr.bind_back e
    obtain ⟨g1, g2, g3⟩ := h1.grows w x w1 hm.wf hne r1
    obtain ⟨g4, g5, g6⟩ := h2.grows w1 y w2 g1 (hm.wf.ne g1 hne g3) r2
    have hf := h1.fits w m a m1 hm hne e1 x w1 r1 (by omega)
    obtain ⟨x', w1', r1', p1, o1, k1⟩ := h1.run w m a m1 hm hne e1 hf
    rw [r1] at r1'
    cases r1'
    have hc : w1.c = w.c + a.length := by
      rw [show w1.c = w1.p.length from k1.wf, p1, List.length_append, ← show w.c = w.p.length from hm.wf]
    have := h2.fits w1 m1 b _ k1 (by rw [p1]; simp [hne]) (by rw [hc, o1, ← e2]; congr 1; omega) y w2 r2 hlt
    omega

theorem Streams.last {α} {wr : Wr α} {p : Part} (h : Streams wr p) : Streams wr (.seq [p]) := by
  rw [Part.seq_one]; exact h

theorem Streams.drop {α} {wr : Wr α} {p : Part} (h : Streams wr p) : Streams (Wr.drop wr) p := by
  refine ⟨h.total, fun w m bs m' hm hne hp hlt => ?_, h.grows.drop, fun w m bs m' hm hne hp a w' e hlt => ?_⟩
  · obtain ⟨a, w', r, x⟩ := h.run w m bs m' hm hne hp hlt
    exact ⟨(), w', by unfold Wr.drop; rw [Wr.bind_ok r]; rfl, x⟩
  · obtain ⟨x, w1, r1, r2⟩ := Wr.bind_back e
    cases r2
    exact h.fits w m bs m' hm hne hp _ _ r1 hlt

theorem Streams.counted {wr : Wr Unit} {p : Part} (h : Streams wr p) : Streams (Wr.counted wr) p := by
  refine ⟨h.total, fun w m bs m' hm hne hp hlt => ?_,
    Wr.Grows.pos.bind fun _ => h.grows.bind fun _ => Wr.Grows.pos.bind fun _ => Wr.Grows.pure _,
    fun w m bs m' hm hne hp a w' e hlt => ?_⟩
  · obtain ⟨a, w', r, x⟩ := h.run w m bs m' hm hne hp hlt
    refine ⟨w'.c + w'.offset - (w.c + w.offset), w', ?_, x⟩
    unfold Wr.counted
    rw [Wr.bind_ok (a := w.c + w.offset) (w' := w) rfl, Wr.bind_ok r,
      Wr.bind_ok (a := w'.c + w'.offset) (w' := w') rfl]
    rfl
  · unfold Wr.counted at e
    rw [Wr.bind_ok (a := w.c + w.offset) (w' := w) rfl] at e
    obtain ⟨x, w1, r1, r2⟩ := Wr.bind_back e
    rw [Wr.bind_ok (a := w1.c + w1.offset) (w' := w1) rfl] at r2
    cases r2
    exact h.fits w m bs m' hm hne hp _ _ r1 hlt

theorem Streams.guarded {α} {wr : Wr α} {p : Part} (h : Streams wr p) :
    Streams (Wr.lenMinusOne >>= fun _ => wr) p := by
  refine ⟨h.total, fun w m bs m' hm hne hp hlt => ?_, Wr.Grows.lenMinusOne.bind fun _ => h.grows,
    fun w m bs m' hm hne hp a w' e hlt => ?_⟩
  · obtain ⟨a, w', r, x⟩ := h.run w m bs m' hm hne hp hlt
    exact ⟨a, w', by rw [Wr.bind_ok (WritesNE.lenMinusOne w hm.wf hne), WBuffer.app_nil, r], x⟩
  · rw [Wr.bind_ok (WritesNE.lenMinusOne w hm.wf hne), WBuffer.app_nil] at e
    exact h.fits w m bs m' hm hne hp _ _ e hlt

theorem Streams.congr {α} {wr : Wr α} {p q : Part} (h : Streams wr p) (e : p = q) : Streams wr q := e ▸ h

theorem Streams.each {α} {f : α → Wr Unit} {g : α → Part} {l : List α} (h : ∀ a ∈ l, Streams (f a) (g a)) :
    Streams (Wr.each f l) (.seq (l.map g)) := by
  induction l with
  | nil => exact Streams.nil
  | cons a as ih =>
    exact Streams.cons (h a List.mem_cons_self) (ih fun b hb => h b (List.mem_cons_of_mem _ hb))

theorem Streams.skip {α} {f : α → Wr Unit} {wr : Wr Unit} {p : Part} (h : Streams wr p) :
    Streams (Wr.each f [] >>= fun _ => wr) p := h

/-! ### Numbers and strings -/

theorem wrapI_eq (k : Nat) (v : Int) : wrapI k v = (v % 256 ^ k).toNat := by
  unfold wrapI; congr 2

theorem Streams.i8 (v : Int) : Streams (Wr.i8 v) (.int 1 v) :=
  Streams.raw (a := ()) (by rw [← wrapI_eq]; exact (Writes.bytes _).ne)
theorem Streams.i16 (v : Int) : Streams (Wr.i16 v) (.int 2 v) :=
  Streams.raw (a := ()) (by rw [← wrapI_eq]; exact (Writes.bytes _).ne)
theorem Streams.i32 (v : Int) : Streams (Wr.i32 v) (.int 4 v) :=
  Streams.raw (a := ()) (by rw [← wrapI_eq]; exact (Writes.bytes _).ne)
theorem Streams.i64 (v : Int) : Streams (Wr.i64 v) (.int 8 v) :=
  Streams.raw (a := ()) (by rw [← wrapI_eq]; exact (Writes.bytes _).ne)

theorem beBytes_int (k v : Nat) : beBytes k ((v : Int) % 256 ^ k).toNat = beBytes k v := by
  rw [← beBytes_mod k v]; congr 1

theorem Streams.u8 (v : Nat) : Streams (Wr.u8 v) (.int 1 v) :=
  Streams.raw (a := ()) (by rw [beBytes_int]; exact (Writes.bytes _).ne)
theorem Streams.u16 (v : Nat) : Streams (Wr.u16 v) (.int 2 v) :=
  Streams.raw (a := ()) (by rw [beBytes_int]; exact (Writes.bytes _).ne)
theorem Streams.u32 (v : Nat) : Streams (Wr.u32 v) (.int 4 v) :=
  Streams.raw (a := ()) (by rw [beBytes_int]; exact (Writes.bytes _).ne)
theorem Streams.f32 (v : Nat) : Streams (Wr.f32 v) (.int 4 v) :=
  Streams.raw (a := ()) (by rw [beBytes_int]; exact (Writes.bytes _).ne)
theorem Streams.f64 (v : Nat) : Streams (Wr.f64 v) (.int 8 v) :=
  Streams.raw (a := ()) (by rw [beBytes_int]; exact (Writes.bytes _).ne)

theorem Streams.bool (v : Bool) : Streams (Wr.bool v) (.int 1 (if v then 1 else 0)) := by
  cases v
  · exact Streams.raw (a := ()) (Writes.bytes _).ne
  · exact Streams.raw (a := ()) (Writes.bytes _).ne

theorem Streams.null : Streams Wr.objectNil .null := Streams.raw (a := 0) (fun _ _ _ => rfl)

theorem Streams.string {s : Str} (hs : s.length < 2 ^ 31) : Streams (Wr.string s) (.str s) := by
  have e : Part.str s = .raw (encStr s) := by
    unfold Part.str encStr
    congr 1
    split <;> simp_all
  rw [e]
  exact Streams.raw (a := ()) (Writes.string hs).ne

/-! ### Records -/

theorem Part.record_some {vers : Int} {body : Part} {pos : Nat} {m : Marks} {r}
    (h : Part.record vers body pos m = some r) : ∃ bs m', body (pos + 6) m = some (bs, m') ∧
      r = (beBytes 4 (2 ^ 30 + (2 + bs.length)) ++ beBytes 2 (vers % 256 ^ 2).toNat ++ bs, m') := by
  simp only [Part.record] at h
  cases hb : body (pos + 6) m with
  | none => simp [hb] at h
  | some x =>
    obtain ⟨bs, m'⟩ := x
    simp [hb] at h
    exact ⟨bs, m', rfl, by rw [← h]; simp⟩

theorem Part.Total.record {vers : Int} {body : Part} (h : body.Total) : (Part.record vers body).Total := by
  intro pos m
  obtain ⟨bs, m', h⟩ := h (pos + 6) m
  exact ⟨_, m', by simp only [Part.record, h]; rfl⟩

/-- A record, on any buffer. -/
theorem Streams.framed_run {vers : Int} {body : Wr Unit} {p : Part} (h : Streams body p) (w : WBuffer) (m : Marks)
    (bs : List Byte) (m' : Marks) (hm : Marked w m) (hp : Part.record vers p (w.c + w.offset) m = some (bs, m'))
    (hlt : w.c + w.offset + bs.length < 2 ^ 30) :
    ∃ w', Wr.framed vers body w = .ok (bs.length, w') ∧ w'.p = w.p ++ bs ∧ w'.offset = w.offset ∧ Marked w' m' := by
  obtain ⟨b, m1, e1, e2⟩ := Part.record_some hp
  cases e2
  simp only [List.length_append, beBytes_length] at hlt
  have hb := h.run (w.app (beBytes 4 0 ++ beBytes 2 (wrapI 2 vers))) m b m' (hm.app _) (by simp [beBytes])
    (by rw [← e1]; simp only [WBuffer.app_c, WBuffer.app_offset, List.length_append, beBytes_length]; congr 1; omega)
    (by simp only [WBuffer.app_c, WBuffer.app_offset, List.length_append, beBytes_length]; omega)
  obtain ⟨a, w2, r2, p2, o2, k2⟩ := hb
  have hp2 : w2.p = w.p ++ (beBytes 4 0 ++ beBytes 2 (wrapI 2 vers) ++ b) := by rw [p2]; simp
  have hset := Wr.setHeader_gen w.p w2 vers b vers hp2 k2.wf
  rw [show w2.offset = w.offset from o2, ← show w.c = w.p.length from hm.wf] at hset
  refine ⟨{ w2 with p := w.p ++ (hdrBytes b.length vers ++ b) }, ?_, ?_, o2, ?_, k2.objects, k2.classes, k2.small⟩
  · unfold Wr.framed
    rw [Wr.bind_ok (Wr.header_eq vers w), Wr.bind_ok r2, hset]
    simp only [List.length_append, beBytes_length, o2, WBuffer.app_offset]
  · show w.p ++ _ = _
    simp only [hdrBytes, wrapI_eq]
    rw [or_byteCountMask (by omega), Nat.add_comm b.length 2]
  · have : w2.c = w2.p.length := k2.wf
    show w2.c = (w.p ++ _).length
    rw [this, hp2]
    simp only [List.length_append, beBytes_length, hdrBytes]

theorem Streams.framed_fits {vers : Int} {body : Wr Unit} {p : Part} (h : Streams body p) (w : WBuffer) (m : Marks)
    (bs : List Byte) (m' : Marks) (hm : Marked w m) (hp : Part.record vers p (w.c + w.offset) m = some (bs, m'))
    (a : Nat) (w' : WBuffer) (e : Wr.framed vers body w = .ok (a, w')) (hlt : w'.c + w'.offset < 2 ^ 30) :
    w.c + w.offset + bs.length < 2 ^ 30 := by
  obtain ⟨b, m1, e1, e2⟩ := Part.record_some hp
  cases e2
  unfold Wr.framed at e
  rw [Wr.bind_ok (Wr.header_eq vers w)] at e
  obtain ⟨x, w2, r2, e⟩ := Wr.bind_back e
  have hne : (w.app (beBytes 4 0 ++ beBytes 2 (wrapI 2 vers))).p ≠ [] := by simp [beBytes]
  have hm1 : Marked (w.app (beBytes 4 0 ++ beBytes 2 (wrapI 2 vers))) m := hm.app _
  obtain ⟨g1, g2, g3⟩ := h.grows _ _ _ hm1.wf hne r2
  have hg : (Wr.setHeader { pos := w.c + w.offset, vers := vers }).Grows :=
    Wr.Grows.pos.bind fun _ => (Wr.Grows.inPlace _ _).bind fun _ => Wr.Grows.pure _
  obtain ⟨g4, g5, g6⟩ := hg _ _ _ g1 (hm1.wf.ne g1 hne g3) e
  have := h.fits _ m b m' hm1 hne
    (by rw [← e1]; simp only [WBuffer.app_c, WBuffer.app_offset, List.length_append, beBytes_length]; congr 1; omega)
    _ _ r2 (by omega)
  simp only [WBuffer.app_c, WBuffer.app_offset, List.length_append, beBytes_length] at this ⊢
  omega

theorem Streams.framed {vers : Int} {body : Wr Unit} {p : Part} (h : Streams body p) :
    Streams (Wr.framed vers body) (.record vers p) := by
  refine ⟨h.total.record, fun w m bs m' hm _ hp hlt => ?_, h.grows.framed, fun w m bs m' hm _ hp a w' e hlt =>
    Streams.framed_fits h w m bs m' hm hp a w' e hlt⟩
  obtain ⟨w', x⟩ := Streams.framed_run h w m bs m' hm hp hlt
  exact ⟨_, w', x⟩

/-! ### Objects -/

theorem Marked.object {w : WBuffer} {m : Marks} (h : Marked w m) (a p : Nat) :
    Marked { w with refsP := (a, p + 2) :: w.refsP } (m.object a p) := by
  refine ⟨h.wf, fun b => ?_, h.classes, h.small⟩
  simp only [Marks.object, List.lookup]
  by_cases e : b = a
  · subst e; simp
  · rw [if_neg e, beq_false_of_ne e]; exact h.objects b

theorem Marked.cls {w : WBuffer} {m : Marks} (h : Marked w m) (s : Str) (p : Nat) (hp : p + 2 < 2 ^ 31) :
    Marked { w with refsS := (s, 2 ^ 31 + (p + 2)) :: w.refsS } (m.cls s p) := by
  refine ⟨h.wf, h.objects, fun t => ?_, fun t k hk => ?_⟩
  · simp only [Marks.cls, List.lookup]
    by_cases e : t = s
    · subst e; simp
    · rw [if_neg e, beq_false_of_ne e]; exact h.classes t
  · simp only [Marks.cls] at hk
    split at hk
    · cases hk; exact hp
    · exact h.small t k hk

/-- What is written does not depend on where the object `id` is. -/
def Part.Ignores (id : Nat) (p : Part) : Prop := ∀ pos m q,
  p pos (m.object id q) = (p pos m).map fun r => (r.1, r.2.object id q)

theorem Wr.objectAny_out {o : WObj} {w : WBuffer} (hw : w.WF) (hne : w.p ≠ []) {body : List Byte}
    {w2 : WBuffer} {m : Marks} {bs : List Byte}
    (h : Wr.writeClass (w.c + w.offset) o (w.app (beBytes 4 0)) = .ok (body.length ||| kByteCountMask, w2))
    (hp : w2.p = w.p ++ (beBytes 4 0 ++ body)) (hi : Marked w2 m) (ho : w2.offset = w.offset)
    (hb : body.length < 2 ^ 30) (he : bs = beBytes 4 (2 ^ 30 + body.length) ++ body) :
    ∃ a w', Wr.objectAny o w = .ok (a, w') ∧ w'.p = w.p ++ bs ∧
      w'.offset = w.offset ∧ Marked w' m := by
  have hc : w.c = w.p.length := hw
  refine ⟨w2.c + w2.offset - (w.c + w.offset),
    { w2 with p := w.p ++ (beBytes 4 (body.length ||| kByteCountMask) ++ body) }, ?_, ?_, ho, ?_, hi.objects,
    hi.classes, hi.small⟩
  · unfold Wr.objectAny
    rw [Wr.bind_ok (a := w.c + w.offset) (w' := w) rfl,
      Wr.bind_ok (WritesNE.lenMinusOne w hw hne), WBuffer.app_nil]
    have h0 : Wr.i32 0 w = .ok ((), w.app (beBytes 4 0)) := rfl
    rw [Wr.bind_ok h0, Wr.bind_ok h]
    have := Wr.inPlace_gen w.p (beBytes 4 0) (beBytes 4 (body.length ||| kByteCountMask)) body w2 hp
      (by simp)
    rw [ho] at this
    rw [hc, Wr.bind_ok this]
    rw [Wr.bind_ok (a := w2.c + w2.offset)
      (w' := { w2 with p := w.p ++ (beBytes 4 (body.length ||| kByteCountMask) ++ body) })
      (by simp [Wr.pos, ho])]
    rw [Wr.pure_eq]
  · show w.p ++ _ = _
    rw [he, or_byteCountMask hb]
  · have h1 : w2.c = w2.p.length := hi.wf
    show w2.c = (w.p ++ _).length
    rw [h1, hp]
    simp

theorem Part.Total.pointer {id : Nat} {cls : Str} {body : Part} (h : body.Total) :
    (Part.pointer id cls body).Total := by
  intro pos m
  unfold Part.pointer
  split
  · exact ⟨_, _, rfl⟩
  · split
    · obtain ⟨bs, m', h⟩ := h (pos + 8) (m.object id pos)
      exact ⟨_, m', by rw [h]; rfl⟩
    · obtain ⟨bs, m', h⟩ := h (pos + 8 + cls.length + 1) ((m.cls cls (pos + 4)).object id pos)
      exact ⟨_, m', by rw [h]; rfl⟩

theorem Streams.pointer_run {o : WObj} {body : Part} (h : Streams o.marshal body) (hi : body.Ignores o.addr)
    (w : WBuffer) (m : Marks) (bs : List Byte) (m' : Marks) (hm : Marked w m) (hne : w.p ≠ [])
    (hp : Part.pointer o.addr o.cls body (w.c + w.offset) m = some (bs, m'))
    (hlt : w.c + w.offset + bs.length < 2 ^ 30) :
    ∃ a w', Wr.objectAny o w = .ok (a, w') ∧ w'.p = w.p ++ bs ∧ w'.offset = w.offset ∧ Marked w' m' := by
  have hc : w.c = w.p.length := hm.wf
  unfold Part.pointer at hp
  have hstart : ∀ {β} (f : Unit → Wr β), (Wr.lenMinusOne >>= f) (w.app (beBytes 4 0)) = f () (w.app (beBytes 4 0)) := by
    intro β f
    rw [Wr.bind_ok (WritesNE.lenMinusOne _ (hm.wf.app _) (by simp [beBytes])), WBuffer.app_nil]
  cases ho : m.objects o.addr with
  | some t =>
    rw [ho] at hp
    cases hp
    refine Wr.objectAny_out (o := o) (body := beBytes 4 t) (w2 := (w.app (beBytes 4 0)).app (beBytes 4 t)) hm.wf hne
      ?_ (by simp) ((hm.app _).app _) rfl (by simp) (by simp)
    · unfold Wr.writeClass
      rw [hstart]
      rw [Wr.bind_ok (a := w.c + 4 + w.offset) (w' := w.app (beBytes 4 0)) (by simp [Wr.pos])]
      rw [Wr.bind_ok (a := some t) (w' := w.app (beBytes 4 0)) (by simp [Wr.refP, hm.objects, ho])]
      simp only []
      rw [Wr.bind_ok (a := ()) (w' := (w.app (beBytes 4 0)).app (beBytes 4 t)) rfl]
      rw [Wr.bind_ok (a := w.c + 4 + 4 + w.offset) (w' := (w.app (beBytes 4 0)).app (beBytes 4 t))
        (by simp [Wr.pos])]
      rw [Wr.pure_eq]
      congr 3
      simp; omega
  | none =>
    rw [ho] at hp
    have hpos : Wr.pos (w.app (beBytes 4 0)) = .ok (w.c + 4 + w.offset, w.app (beBytes 4 0)) := by simp [Wr.pos]
    have hrp : Wr.refP o.addr (w.app (beBytes 4 0)) = .ok (none, w.app (beBytes 4 0)) := by
      simp [Wr.refP, hm.objects, ho]
    cases hs : m.classes o.cls with
    | some k =>
      rw [hs] at hp
      have hk := hm.small _ _ hs
      dsimp only at hp
      rw [hi] at hp
      cases hb : body (w.c + w.offset + 8) m with
      | none => simp [hb] at hp
      | some x =>
        obtain ⟨b, m1⟩ := x
        simp only [hb, Option.map_some, Option.bind_eq_bind, Option.bind_some, Option.some.injEq, Prod.mk.injEq] at hp
        obtain ⟨rfl, rfl⟩ := hp
        simp only [List.length_append, beBytes_length] at hlt
        obtain ⟨a, w2, r2, p2, o2, k2⟩ := h.run ((w.app (beBytes 4 0)).app (beBytes 4 (2 ^ 31 + k))) m b m1
          ((hm.app _).app _) (by simp [beBytes])
          (by rw [← hb]; simp only [WBuffer.app_c, WBuffer.app_offset, beBytes_length]; congr 1; omega)
          (by simp only [WBuffer.app_c, WBuffer.app_offset, beBytes_length]; omega)
        have hp2 : w2.p = w.p ++ (beBytes 4 0 ++ (beBytes 4 (2 ^ 31 + k) ++ b)) := by rw [p2]; simp
        have hc2 : w2.c = w.c + (4 + (4 + b.length)) := by
          rw [show w2.c = w2.p.length from k2.wf, hp2, hc]; simp
        refine Wr.objectAny_out (o := o) (body := beBytes 4 (2 ^ 31 + k) ++ b) (m := m1.object o.addr (w.c + w.offset))
          (w2 := { w2 with refsP := (o.addr, w.c + w.offset + 2) :: w2.refsP }) hm.wf hne ?_ hp2
          (k2.object _ _) o2 (by simp only [List.length_append, beBytes_length]; omega) (by simp)
        · unfold Wr.writeClass
          rw [hstart, Wr.bind_ok hpos, Wr.bind_ok hrp]
          simp only []
          rw [Wr.bind_ok (a := some (2 ^ 31 + k)) (w' := w.app (beBytes 4 0))
            (by simp [Wr.refS, hm.classes, hs])]
          simp only []
          rw [add_or_classMask hk]
          rw [Wr.bind_ok (a := ()) (w' := (w.app (beBytes 4 0)).app (beBytes 4 (2 ^ 31 + k))) rfl]
          rw [Wr.bind_ok (a := ()) (w' := w2) (by unfold Wr.drop; rw [Wr.bind_ok r2]; rfl)]
          rw [Wr.bind_ok (a := ()) (w' := { w2 with refsP := (o.addr, w.c + w.offset + 2) :: w2.refsP }) rfl]
          rw [Wr.bind_ok (a := w2.c + w.offset)
            (w' := { w2 with refsP := (o.addr, w.c + w.offset + 2) :: w2.refsP }) (by simp [Wr.pos, o2])]
          rw [Wr.pure_eq]
          congr 3
          rw [hc2]; simp only [List.length_append, beBytes_length]; omega
    | none =>
      rw [hs] at hp
      dsimp only at hp
      cases hb : body (w.c + w.offset + 8 + o.cls.length + 1)
          ((m.cls o.cls (w.c + w.offset + 4)).object o.addr (w.c + w.offset)) with
      | none => simp [hb] at hp
      | some x =>
        obtain ⟨b, m1⟩ := x
        simp only [hb, Option.bind_eq_bind, Option.bind_some, Option.some.injEq, Prod.mk.injEq] at hp
        obtain ⟨rfl, rfl⟩ := hp
        simp only [List.length_append, beBytes_length, List.length_singleton] at hlt
        generalize hw1 : (w.app (beBytes 4 0)).app (beBytes 4 kNewClassTag ++ (o.cls ++ [0])) = w1 at *
        have hm1 : Marked w1 m := by rw [← hw1]; exact (hm.app _).app _
        have hp1 : w1.p = w.p ++ (beBytes 4 0 ++ (beBytes 4 kNewClassTag ++ (o.cls ++ [0]))) := by rw [← hw1]; simp
        have hc1 : w1.c = w.c + (4 + (4 + (o.cls.length + 1))) := by rw [← hw1]; simp
        have ho1 : w1.offset = w.offset := by rw [← hw1]; rfl
        have hm2 := (hm1.cls o.cls (w.c + w.offset + 4) (by omega)).object o.addr (w.c + w.offset)
        obtain ⟨a, w2, r2, p2, o2, k2⟩ := h.run _ _ b m1 hm2 (by simp [hp1, beBytes])
          (by rw [← hb]; dsimp only; rw [hc1, ho1]; congr 1; omega) (by dsimp only; rw [hc1, ho1]; omega)
        have hp2 : w2.p = w.p ++ (beBytes 4 0 ++ (beBytes 4 kNewClassTag ++ (o.cls ++ [0]) ++ b)) := by
          rw [p2]; simp [hp1]
        have hc2 : w2.c = w.c + (4 + (4 + (o.cls.length + 1) + b.length)) := by
          rw [show w2.c = w2.p.length from k2.wf, hp2, hc]
          simp only [List.length_append, beBytes_length, List.length_singleton]
        refine Wr.objectAny_out (o := o) (body := beBytes 4 kNewClassTag ++ (o.cls ++ [0]) ++ b) (m := m1) (w2 := w2) hm.wf hne ?_
          hp2 k2 (by rw [o2]; exact ho1) (by simp only [List.length_append, beBytes_length, List.length_singleton]; omega)
          (by simp [kNewClassTag, Nat.add_assoc, Nat.add_comm 1 b.length])
        · unfold Wr.writeClass
          rw [hstart, Wr.bind_ok hpos, Wr.bind_ok hrp]
          simp only []
          rw [Wr.bind_ok (a := none) (w' := w.app (beBytes 4 0)) (by simp [Wr.refS, hm.classes, hs])]
          simp only []
          rw [Wr.bind_ok (a := ()) (w' := (w.app (beBytes 4 0)).app (beBytes 4 kNewClassTag)) rfl]
          rw [Wr.bind_ok (a := ()) (w' := w1)
            (by rw [Writes.cstring o.cls _ ((hm.wf.app _).app _), WBuffer.app_app, hw1])]
          rw [Wr.bind_ok (a := ())
            (w' := { w1 with refsS := (o.cls, 2 ^ 31 + (w.c + w.offset + 4 + 2)) :: w1.refsS }) (by
              unfold Wr.setRefS
              rw [or_classMask (by simp only [kMapOffset]; omega)]
              have : w.c + 4 + w.offset + kMapOffset = w.c + w.offset + 4 + 2 := by simp only [kMapOffset]; omega
              rw [this])]
          rw [Wr.bind_ok (a := ()) (w' := { w1 with
            refsS := (o.cls, 2 ^ 31 + (w.c + w.offset + 4 + 2)) :: w1.refsS,
            refsP := (o.addr, w.c + w.offset + 2) :: w1.refsP }) rfl]
          rw [Wr.bind_ok (a := ()) (w' := w2) (by unfold Wr.drop; rw [Wr.bind_ok r2]; rfl)]
          rw [Wr.bind_ok (a := w2.c + w.offset) (w' := w2) (by simp [Wr.pos, o2, ho1])]
          rw [Wr.pure_eq]
          congr 3
          rw [hc2]; simp only [List.length_append, beBytes_length, List.length_singleton]; omega

theorem Streams.pointer_fits {o : WObj} {body : Part} (h : Streams o.marshal body) (hi : body.Ignores o.addr)
    (w : WBuffer) (m : Marks) (bs : List Byte) (m' : Marks) (hm : Marked w m) (hne : w.p ≠ [])
    (hp : Part.pointer o.addr o.cls body (w.c + w.offset) m = some (bs, m')) (a : Nat) (w' : WBuffer)
    (e : Wr.objectAny o w = .ok (a, w')) (hlt : w'.c + w'.offset < 2 ^ 30) :
    w.c + w.offset + bs.length < 2 ^ 30 := by
  unfold Wr.objectAny at e
  rw [Wr.bind_ok (a := w.c + w.offset) (w' := w) rfl,
    Wr.bind_ok (WritesNE.lenMinusOne w hm.wf hne), WBuffer.app_nil] at e
  have h0 : Wr.i32 0 w = .ok ((), w.app (beBytes 4 0)) := rfl
  rw [Wr.bind_ok h0] at e
  obtain ⟨n, w3, r3, e⟩ := Wr.bind_back e
  have hne0 : (w.app (beBytes 4 0)).p ≠ [] := by simp [beBytes]
  obtain ⟨g1, g2, g3⟩ := Wr.Grows.writeClass _ h.grows _ _ _ (hm.wf.app _) hne0 r3
  have hg : (do
      Wr.inPlace (beBytes 4 n) (w.c + w.offset)
      let e ← Wr.pos
      pure (e - (w.c + w.offset)) : Wr Nat).Grows :=
    (Wr.Grows.inPlace _ _).bind fun _ => Wr.Grows.pos.bind fun _ => Wr.Grows.pure _
  obtain ⟨-, g5, g6⟩ := hg _ _ _ g1 ((hm.wf.app _).ne g1 hne0 g3) e
  have hlt3 : w3.c + w.offset < 2 ^ 30 := by simp only [WBuffer.app_offset] at g2; omega
  simp only [WBuffer.app_c, beBytes_length] at g3
  have hstart : ∀ {β} (f : Unit → Wr β), (Wr.lenMinusOne >>= f) (w.app (beBytes 4 0)) = f () (w.app (beBytes 4 0)) := by
    intro β f
    rw [Wr.bind_ok (WritesNE.lenMinusOne _ (hm.wf.app _) (by simp [beBytes])), WBuffer.app_nil]
  have hpos : Wr.pos (w.app (beBytes 4 0)) = .ok (w.c + 4 + w.offset, w.app (beBytes 4 0)) := by simp [Wr.pos]
  unfold Wr.writeClass at r3
  rw [hstart, Wr.bind_ok hpos] at r3
  unfold Part.pointer at hp
  cases ho : m.objects o.addr with
  | some t =>
    rw [ho] at hp
    cases hp
    rw [Wr.bind_ok (a := some t) (w' := w.app (beBytes 4 0)) (by simp [Wr.refP, hm.objects, ho])] at r3
    simp only [] at r3
    rw [Wr.bind_ok (a := ()) (w' := (w.app (beBytes 4 0)).app (beBytes 4 t)) rfl,
      Wr.bind_ok (a := w.c + 4 + 4 + w.offset) (w' := (w.app (beBytes 4 0)).app (beBytes 4 t)) (by simp [Wr.pos])] at r3
    cases r3
    simp only [WBuffer.app_c, beBytes_length, List.length_append] at hlt3 ⊢
    omega
  | none =>
    rw [ho] at hp
    rw [Wr.bind_ok (a := none) (w' := w.app (beBytes 4 0)) (by simp [Wr.refP, hm.objects, ho])] at r3
    simp only [] at r3
    cases hs : m.classes o.cls with
    | some k =>
      rw [hs] at hp
      dsimp only at hp
      rw [hi] at hp
      cases hb : body (w.c + w.offset + 8) m with
      | none => simp [hb] at hp
      | some x =>
        obtain ⟨b, m1⟩ := x
        simp only [hb, Option.map_some, Option.bind_eq_bind, Option.bind_some, Option.some.injEq, Prod.mk.injEq] at hp
        obtain ⟨rfl, rfl⟩ := hp
        rw [Wr.bind_ok (a := some (2 ^ 31 + k)) (w' := w.app (beBytes 4 0)) (by simp [Wr.refS, hm.classes, hs])] at r3
        simp only [] at r3
        rw [Wr.bind_ok (a := ()) (w' := (w.app (beBytes 4 0)).app (beBytes 4 (2 ^ 31 + k ||| kClassMask))) rfl] at r3
        obtain ⟨y, w2, r2, r3⟩ := Wr.bind_back r3
        have hm1 : Marked ((w.app (beBytes 4 0)).app (beBytes 4 (2 ^ 31 + k ||| kClassMask))) m := (hm.app _).app _
        have hne1 : ((w.app (beBytes 4 0)).app (beBytes 4 (2 ^ 31 + k ||| kClassMask))).p ≠ [] := by simp [beBytes]
        obtain ⟨k1, k2, k3⟩ := h.grows.drop _ _ _ hm1.wf hne1 r2
        have hg : (do
            Wr.setRefP o.addr (w.c + w.offset + kMapOffset)
            let e ← Wr.pos
            pure ((e - (w.c + 4 + w.offset)) ||| kByteCountMask) : Wr Nat).Grows :=
          (Wr.Grows.setRefP _ _).bind fun _ => Wr.Grows.pos.bind fun _ => Wr.Grows.pure _
        obtain ⟨-, k5, k6⟩ := hg _ _ _ k1 (hm1.wf.ne k1 hne1 k3) r3
        have := h.drop.fits _ m b m1 hm1 hne1
          (by rw [← hb]; simp only [WBuffer.app_c, WBuffer.app_offset, beBytes_length]; congr 1; omega)
          _ _ r2 (by simp only [WBuffer.app_offset] at k2; omega)
        simp only [WBuffer.app_c, WBuffer.app_offset, beBytes_length, List.length_append] at this ⊢
        omega
    | none =>
      rw [hs] at hp
      dsimp only at hp
      cases hb : body (w.c + w.offset + 8 + o.cls.length + 1)
          ((m.cls o.cls (w.c + w.offset + 4)).object o.addr (w.c + w.offset)) with
      | none => simp [hb] at hp
      | some x =>
        obtain ⟨b, m1⟩ := x
        simp only [hb, Option.bind_eq_bind, Option.bind_some, Option.some.injEq, Prod.mk.injEq] at hp
        obtain ⟨rfl, rfl⟩ := hp
        generalize hw1 : (w.app (beBytes 4 0)).app (beBytes 4 kNewClassTag ++ (o.cls ++ [0])) = w1 at *
        have hm1 : Marked w1 m := by rw [← hw1]; exact (hm.app _).app _
        have hp1 : w1.p = w.p ++ (beBytes 4 0 ++ (beBytes 4 kNewClassTag ++ (o.cls ++ [0]))) := by rw [← hw1]; simp
        have hc1 : w1.c = w.c + (4 + (4 + (o.cls.length + 1))) := by rw [← hw1]; simp
        have ho1 : w1.offset = w.offset := by rw [← hw1]; rfl
        have hm2 := (hm1.cls o.cls (w.c + w.offset + 4) (by omega)).object o.addr (w.c + w.offset)
        rw [Wr.bind_ok (a := none) (w' := w.app (beBytes 4 0)) (by simp [Wr.refS, hm.classes, hs])] at r3
        simp only [] at r3
        rw [Wr.bind_ok (a := ()) (w' := (w.app (beBytes 4 0)).app (beBytes 4 kNewClassTag)) rfl,
          Wr.bind_ok (a := ()) (w' := w1)
            (by rw [Writes.cstring o.cls _ ((hm.wf.app _).app _), WBuffer.app_app, hw1]),
          Wr.bind_ok (a := ())
            (w' := { w1 with refsS := (o.cls, 2 ^ 31 + (w.c + w.offset + 4 + 2)) :: w1.refsS }) (by
              unfold Wr.setRefS
              rw [or_classMask (by simp only [kMapOffset]; omega)]
              have : w.c + 4 + w.offset + kMapOffset = w.c + w.offset + 4 + 2 := by simp only [kMapOffset]; omega
              rw [this]),
          Wr.bind_ok (a := ()) (w' := { w1 with
            refsS := (o.cls, 2 ^ 31 + (w.c + w.offset + 4 + 2)) :: w1.refsS,
            refsP := (o.addr, w.c + w.offset + 2) :: w1.refsP }) rfl] at r3
        obtain ⟨y, w2, r2, r3⟩ := Wr.bind_back r3
        have hne1 : w1.p ≠ [] := by rw [hp1]; simp [beBytes]
        obtain ⟨k1, k2, k3⟩ := h.grows.drop _ _ _ hm2.wf hne1 r2
        have hg : (do
            let e ← Wr.pos
            pure ((e - (w.c + 4 + w.offset)) ||| kByteCountMask) : Wr Nat).Grows :=
          Wr.Grows.pos.bind fun _ => Wr.Grows.pure _
        obtain ⟨-, k5, k6⟩ := hg _ _ _ k1 (hm2.wf.ne k1 hne1 k3) r3
        have := h.drop.fits _ _ b m1 hm2 hne1 (by rw [← hb]; dsimp only; rw [hc1, ho1]; congr 1; omega)
          _ _ r2 (by dsimp only at k2; omega)
        simp only [beBytes_length, List.length_append, List.length_singleton] at this ⊢
        omega

theorem Streams.pointer {o : WObj} {body : Part} (h : Streams o.marshal body) (hi : body.Ignores o.addr) :
    Streams (Wr.objectAny o) (.pointer o.addr o.cls body) :=
  ⟨h.total.pointer, Streams.pointer_run h hi, h.grows.objectAny, Streams.pointer_fits h hi⟩

/-! ### Objects that are not inside -/

theorem Part.Ignores.raw (id : Nat) (bs : List Byte) : (Part.raw bs).Ignores id := fun _ _ _ => rfl

theorem Part.Ignores.cons {id : Nat} {p : Part} {ps : List Part} (h1 : p.Ignores id) (h2 : (Part.seq ps).Ignores id) :
    (Part.seq (p :: ps)).Ignores id := by
  intro pos m q
  simp only [Part.seq, h1 pos m q]
  cases p pos m with
  | none => rfl
  | some r =>
    simp only [Option.map_some, Option.bind_eq_bind, Option.bind_some, h2 _ _ q]
    cases Part.seq ps (pos + r.1.length) r.2 with
    | none => rfl
    | some x => rfl

theorem Part.Ignores.seq {id : Nat} {ps : List Part} (h : ∀ p ∈ ps, p.Ignores id) : (Part.seq ps).Ignores id := by
  induction ps with
  | nil => exact Part.Ignores.raw id []
  | cons p ps ih =>
    exact Part.Ignores.cons (h p List.mem_cons_self) (ih fun x hx => h x (List.mem_cons_of_mem _ hx))

theorem Part.Ignores.record {id : Nat} {vers : Int} {p : Part} (h : p.Ignores id) : (Part.record vers p).Ignores id := by
  intro pos m q
  simp only [Part.record, h _ m q]
  cases p (pos + 6) m with
  | none => rfl
  | some r => rfl

theorem Marks.object_comm (m : Marks) {a b : Nat} (h : a ≠ b) (p q : Nat) :
    (m.object a p).object b q = (m.object b q).object a p := by
  unfold Marks.object
  congr 1
  funext x
  by_cases e1 : x = a
  · subst e1; simp [h]
  · simp [e1]

theorem Part.Ignores.pointer {id id' : Nat} {cls : Str} {p : Part} (h : p.Ignores id) (hne : id' ≠ id) :
    (Part.pointer id' cls p).Ignores id := by
  intro pos m q
  have ho : (m.object id q).objects id' = m.objects id' := by simp [Marks.object, hne]
  have hs : (m.object id q).classes cls = m.classes cls := rfl
  simp only [Part.pointer, ho, hs]
  cases m.objects id' with
  | some t => rfl
  | none =>
    cases m.classes cls with
    | some k =>
      simp only [Marks.object_comm m (Ne.symm hne), h _ _ q]
      cases p (pos + 8) (m.object id' pos) with
      | none => rfl
      | some r => rfl
    | none =>
      have e : (((m.object id q).cls cls (pos + 4)).object id' pos) =
          (((m.cls cls (pos + 4)).object id' pos).object id q) := by
        rw [Marks.object_comm _ hne]; rfl
      simp only [e, h _ _ q]
      cases p (pos + 8 + cls.length + 1) ((m.cls cls (pos + 4)).object id' pos) with
      | none => rfl
      | some r => rfl

theorem Part.Ignores.impossible (id : Nat) : Part.impossible.Ignores id := fun _ _ _ => rfl

/-- Parts inside a member. -/
def Member.Ignores (id : Nat) : Member → Prop
  | .inside p | .pointer p => p.Ignores id
  | _ => True

theorem Member.part_ignores {id : Nat} {all : List (Str × Member)} {v : Member} (h : v.Ignores id) (s : Layout) :
    (v.part all s).Ignores id := by
  unfold Member.part
  split
  · exact Part.Ignores.raw id _
  · split
    · refine Part.Ignores.seq fun p hp => ?_
      obtain ⟨x, -, rfl⟩ := List.mem_map.1 hp
      exact Part.Ignores.raw id _
    · exact Part.Ignores.impossible id
  · exact Part.Ignores.raw id _
  · split
    · split
      · split
        · exact Part.Ignores.raw id _
        · refine Part.Ignores.seq fun p hp => ?_
          rcases List.mem_cons.1 hp with rfl | hp
          · exact Part.Ignores.raw id _
          · obtain ⟨x, -, rfl⟩ := List.mem_map.1 hp
            exact Part.Ignores.raw id _
      · exact Part.Ignores.impossible id
    · exact Part.Ignores.impossible id
  · exact h
  · exact h
  · exact Part.Ignores.impossible id

theorem membersPart_ignores {id : Nat} {all : List (Str × Member)} : ∀ (ss : List (Str × Layout))
    (vs : List (Str × Member)), (∀ x ∈ vs, x.2.Ignores id) → ∀ p ∈ membersPart all ss vs, p.Ignores id
  | [], [], _, p, hp => by cases hp
  | (n, s) :: ss, (n', v) :: vs, h, p, hp => by
    rw [membersPart] at hp
    rcases List.mem_cons.1 hp with rfl | hp
    · split
      · exact Member.part_ignores (h (n', v) List.mem_cons_self) s
      · exact Part.Ignores.impossible id
    · exact membersPart_ignores ss vs (fun x hx => h x (List.mem_cons_of_mem _ hx)) p hp
  | [], _ :: _, _, p, hp => by
    rw [membersPart] at hp
    · rw [List.mem_singleton.1 hp]; exact Part.Ignores.impossible id
    all_goals simp
  | _ :: _, [], _, p, hp => by
    rw [membersPart] at hp
    · rw [List.mem_singleton.1 hp]; exact Part.Ignores.impossible id
    all_goals simp

theorem ClassRow.part_ignores {id : Nat} {row : ClassRow} {members : List (Str × Member)}
    (h : ∀ x ∈ members, x.2.Ignores id) : (row.part members).Ignores id := by
  unfold ClassRow.part
  split
  · exact Part.Ignores.record (Part.Ignores.seq (membersPart_ignores _ _ h))
  · exact Part.Ignores.impossible id

/-! ### Classes -/

/-- The version and the shapes of the members of a class. -/
def ClassRow.shapes (row : ClassRow) : Option (Int × List (Str × Layout)) :=
  match row.info 0 with
  | .ok info => some (info.clsver, info.elems.map fun s => (s.name, s.shape))
  | .error _ => none

theorem ClassRow.part_eq {row : ClassRow} {v : Int} {ss : List (Str × Layout)} (h : row.shapes = some (v, ss))
    (members : List (Str × Member)) : row.part members = .record v (.seq (membersPart members ss members)) := by
  unfold ClassRow.shapes at h
  unfold ClassRow.part
  cases hi : row.info 0 with
  | ok info =>
    rw [hi] at h
    cases h
    rfl
  | error e => rw [hi] at h; cases h

theorem TObject.streams (o : TObject) : Streams o.marshal o.part := by
  unfold TObject.marshal TObject.part
  refine Streams.counted ?_
  have hb : o.testBits kIsReferenced = o.bits.testBit 4 := by
    unfold TObject.testBits
    have := and_two_pow_ne_zero o.bits 4
    rw [Bool.eq_iff_iff, ← this, decide_eq_true_iff]
    exact Iff.rfl
  rw [hb]
  cases o.bits.testBit 4 with
  | true =>
    have h24 : o.id &&& 0xffffff = o.id % 2 ^ 24 := Nat.and_two_pow_sub_one_eq_mod o.id 24
    simp only [if_true, h24]
    exact Streams.cons (Streams.u16 1) (Streams.cons (Streams.u32 _) (Streams.cons (Streams.u32 _)
      (Streams.last (Streams.u16 0))))
  | false =>
    simp only [Bool.false_eq_true, if_false]
    exact Streams.cons (Streams.u16 1) (Streams.cons (Streams.u32 _) (Streams.last (Streams.u32 _)))

theorem TextOk.short {s : Str} (h : TextOk s) : s.length < 2 ^ 31 := by have := h.1; omega

theorem Streams.text {s : Str} (h : TextOk s) : Streams (Wr.string s) (.str s) := Streams.string h.short

theorem TNamed.streams {n : TNamed} (h : n.Fits) : Streams n.marshal n.part := by
  rw [TNamed.part, ClassRow.part_eq (v := 1) (ss := [(b! "TObject", .inside), (b! "fName", .text), (b! "fTitle", .text)])
    (by decide +kernel)]
  simp only [membersPart, if_true, Member.part]
  exact Streams.guarded (Streams.framed (Streams.cons n.obj.streams.drop
    (Streams.cons (Streams.text h.2.1) (Streams.last (Streams.text h.2.2)))))

theorem AttLine.streams (a : AttLine) : Streams a.marshal a.part := by
  rw [AttLine.part, ClassRow.part_eq (v := 2)
    (ss := [(b! "fLineColor", .number 2), (b! "fLineStyle", .number 2), (b! "fLineWidth", .number 2)])
    (by decide +kernel)]
  simp only [membersPart, if_true, Member.part]
  exact Streams.framed (Streams.cons (Streams.i16 _) (Streams.cons (Streams.i16 _) (Streams.last (Streams.i16 _))))

theorem AttFill.streams (a : AttFill) : Streams a.marshal a.part := by
  rw [AttFill.part, ClassRow.part_eq (v := 2)
    (ss := [(b! "fFillColor", .number 2), (b! "fFillStyle", .number 2)]) (by decide +kernel)]
  simp only [membersPart, if_true, Member.part]
  exact Streams.framed (Streams.cons (Streams.i16 _) (Streams.last (Streams.i16 _)))

theorem AttMarker.streams (a : AttMarker) : Streams a.marshal a.part := by
  rw [AttMarker.part, ClassRow.part_eq (v := 2)
    (ss := [(b! "fMarkerColor", .number 2), (b! "fMarkerStyle", .number 2), (b! "fMarkerSize", .number 4)])
    (by decide +kernel)]
  simp only [membersPart, if_true, Member.part]
  exact Streams.framed (Streams.cons (Streams.i16 _) (Streams.cons (Streams.i16 _) (Streams.last (Streams.f32 _))))

theorem features_streams : Streams (TioFeatures.marshal 0) (featuresPart 0) := by
  rw [featuresPart, ClassRow.part_eq (v := 1) (ss := [(b! "fIOBits", .number 1)]) (by decide +kernel)]
  simp only [membersPart, if_true, Member.part]
  exact Streams.framed (Streams.last (Streams.u8 0))

theorem TLeaf.streams {t : TLeaf} (h : t.Storable) : Streams t.marshal t.part := by
  rw [TLeaf.part, ClassRow.part_eq (v := 2)
    (ss := [(b! "TNamed", .inside), (b! "fLen", .number 4), (b! "fLenType", .number 4), (b! "fOffset", .number 4),
      (b! "fIsRange", .number 1), (b! "fIsUnsigned", .number 1), (b! "fLeafCount", .pointer)]) (by decide +kernel)]
  simp only [membersPart, if_true, Member.part, Member.bool]
  unfold TLeaf.marshal
  rw [h.count]
  exact Streams.guarded (Streams.framed (Streams.cons (TNamed.streams h.named).drop (Streams.cons (Streams.i32 _)
    (Streams.cons (Streams.i32 _) (Streams.cons (Streams.i32 _) (Streams.cons (Streams.bool _)
      (Streams.cons (Streams.bool _) (Streams.last Streams.null.drop))))))))

/-- The size of the minimum and the maximum. -/
def LeafKind.width : LeafKind → Nat
  | .I | .C | .F => 4
  | .B | .O => 1
  | .S => 2
  | .L | .D => 8

theorem LeafKind.streams {k : LeafKind} {v : Int} (h : k.Fits v) : Streams (k.put v) (.int k.width v) := by
  cases k with
  | I => exact Streams.i32 v
  | C => exact Streams.i32 v
  | B => exact Streams.i8 v
  | S => exact Streams.i16 v
  | L => exact Streams.i64 v
  | F => have := Streams.f32 v.toNat; rwa [Int.toNat_of_nonneg h.1] at this
  | D => have := Streams.f64 v.toNat; rwa [Int.toNat_of_nonneg h.1] at this
  | O =>
    rcases h with rfl | rfl
    · exact Streams.bool false
    · exact Streams.bool true

theorem LeafKind.shapes (k : LeafKind) : k.row.shapes =
    some (1, [(b! "TLeaf", .inside), (b! "fMinimum", .number k.width), (b! "fMaximum", .number k.width)]) := by
  cases k <;> decide +kernel

theorem Leaf.streams {l : Leaf} (h : l.Storable) : Streams l.marshal l.part := by
  cases l with
  | base t => exact h.elim
  | element v t id ltype =>
    simp only [Leaf.part]
    rw [ClassRow.part_eq (v := 1) (ss := [(b! "TLeaf", .inside), (b! "fID", .number 4), (b! "fType", .number 4)])
      (by decide +kernel)]
    simp only [membersPart, if_true, Member.part]
    exact Streams.guarded (Streams.framed (Streams.cons (TLeaf.streams h.2.1).drop
      (Streams.cons (Streams.i32 _) (Streams.last (Streams.i32 _)))))
  | var k v t min max =>
    simp only [Leaf.part]
    rw [ClassRow.part_eq k.shapes]
    simp only [membersPart, if_true, Member.part]
    exact Streams.guarded (Streams.framed (Streams.cons (TLeaf.streams h.2.1).drop
      (Streams.cons (LeafKind.streams h.2.2.1) (Streams.last (LeafKind.streams h.2.2.2)))))

/-! ### Arrays of objects -/

theorem Part.seq_append (ps qs : List Part) : Part.seq (ps ++ qs) = Part.seq [Part.seq ps, Part.seq qs] := by
  induction ps with
  | nil =>
    funext pos m
    simp only [List.nil_append]
    rw [show Part.seq [Part.seq [], Part.seq qs] pos m = (Part.seq [Part.seq qs] pos m).map (fun r => ([] ++ r.1, r.2)) from ?_,
      Part.seq_one]
    · cases Part.seq qs pos m <;> rfl
    · rw [Part.seq_one]
      simp only [Part.seq, Part.raw, Option.bind_eq_bind, Option.bind_some, List.length_nil, Nat.add_zero, List.nil_append]
      cases Part.seq qs pos m <;> simp
  | cons p ps ih =>
    funext pos m
    rw [List.cons_append]
    simp only [Part.seq, ih]
    cases p pos m with
    | none => rfl
    | some r =>
      simp only [Option.bind_eq_bind, Option.bind_some]
      cases Part.seq ps (pos + r.1.length) r.2 with
      | none => rfl
      | some x =>
        simp only [Option.bind_some, List.length_append, Nat.add_assoc]
        cases Part.seq qs (pos + (r.1.length + x.1.length)) x.2 with
        | none => rfl
        | some y => simp [Part.raw]

theorem Streams.append {α β} {a : Wr α} {b : Wr β} {ps qs : List Part} (h1 : Streams a (.seq ps))
    (h2 : Streams b (.seq qs)) : Streams (a >>= fun _ => b) (.seq (ps ++ qs)) := by
  rw [Part.seq_append]
  exact Streams.cons h1 (Streams.last h2)

theorem Streams.array {α} {objs : List WObj} {l : List α} {f : α → WObj} {g : α → Part} (he : objs = l.map f)
    (hl : l.length < 2 ^ 31)
    (h : ∀ a ∈ l, Streams (Wr.objectAny (f a)) (g a)) :
    Streams (TObjArray.marshal TObject.default none 0 objs) (arrayPart (l.map g)) := by
  subst he
  unfold TObjArray.marshal arrayPart
  rw [if_neg (by rw [List.length_map]; omega)]
  simp only [List.length_map]
  refine Streams.framed (Streams.cons TObject.default.streams.drop (Streams.cons (Streams.string (s := []) (by decide))
    (Streams.cons (Streams.i32 _) (Streams.cons (Streams.i32 0) ?_))))
  have : Wr.each (fun o => Wr.drop (Wr.objectAny o)) (l.map f) = Wr.each (fun a => Wr.drop (Wr.objectAny (f a))) l := by
    clear h hl
    induction l with
    | nil => rfl
    | cons a as ih => simp only [List.map_cons, Wr.each, ih]
  rw [this]
  exact Streams.each fun a ha => (h a ha).drop

/-! ### Branches and trees -/

theorem TObject.part_ignores (id : Nat) (o : TObject) : o.part.Ignores id := by
  unfold TObject.part
  split <;> refine Part.Ignores.seq fun p hp => ?_ <;> simp only [List.mem_cons, List.not_mem_nil, or_false] at hp
  · rcases hp with rfl | rfl | rfl | rfl <;> exact Part.Ignores.raw id _
  · rcases hp with rfl | rfl | rfl <;> exact Part.Ignores.raw id _

theorem TNamed.part_ignores (id : Nat) (n : TNamed) : n.part.Ignores id :=
  ClassRow.part_ignores (by simp [Member.Ignores, TObject.part_ignores])

theorem AttFill.part_ignores (id : Nat) (a : AttFill) : a.part.Ignores id :=
  ClassRow.part_ignores (by simp [Member.Ignores])

theorem features_ignores (id v : Nat) : (featuresPart v).Ignores id :=
  ClassRow.part_ignores (by simp [Member.Ignores])

theorem TLeaf.part_ignores (id : Nat) (t : TLeaf) : t.part.Ignores id :=
  ClassRow.part_ignores (by
    simp [Member.Ignores, TNamed.part_ignores, Member.bool, Part.null, Part.Ignores.raw])

theorem Leaf.part_ignores (id : Nat) (l : Leaf) : l.part.Ignores id := by
  cases l with
  | base t => exact t.part_ignores id
  | element v t i lt =>
    simp only [Leaf.part]
    exact ClassRow.part_ignores (by simp [Member.Ignores, TLeaf.part_ignores])
  | var k v t a b =>
    simp only [Leaf.part]
    exact ClassRow.part_ignores (by simp [Member.Ignores, TLeaf.part_ignores])

theorem arrayPart_ignores {id : Nat} {items : List Part} (h : ∀ p ∈ items, p.Ignores id) :
    (arrayPart items).Ignores id := by
  refine Part.Ignores.record (Part.Ignores.seq fun p hp => ?_)
  rcases List.mem_append.1 hp with hp | hp
  · simp only [List.mem_cons, List.not_mem_nil, or_false] at hp
    rcases hp with rfl | rfl | rfl | rfl
    · exact TObject.part_ignores id _
    all_goals exact Part.Ignores.raw id _
  · exact h p hp

theorem BranchData.part_ignores {id : Nat} (d : BranchData) (nb : Nat) {leafAddrs : List Nat} (h : id ∉ leafAddrs) :
    (d.part nb leafAddrs).Ignores id := by
  refine ClassRow.part_ignores ?_
  have hl : (arrayPart ((d.leaves.zip leafAddrs).map leafPointer)).Ignores id := by
    refine arrayPart_ignores fun p hp => ?_
    obtain ⟨x, hx, rfl⟩ := List.mem_map.1 hp
    refine Part.Ignores.pointer (Leaf.part_ignores id _) fun e => h ?_
    rw [← e]
    exact (List.of_mem_zip hx).2
  have h0 : (arrayPart []).Ignores id := arrayPart_ignores fun p hp => by cases hp
  simp [BranchData.members, Member.Ignores, TNamed.part_ignores, AttFill.part_ignores, features_ignores, hl, h0]

theorem Branch.part_ignores {id : Nat} (b : Branch) (nb : Nat) {leafAddrs : List Nat} (h : id ∉ leafAddrs) :
    (b.part nb leafAddrs).Ignores id := by
  unfold Branch.part
  split
  · exact BranchData.part_ignores _ nb h
  · refine ClassRow.part_ignores ?_
    simp [Member.Ignores, BranchData.part_ignores _ nb h, Part.null, Part.Ignores.raw]

theorem Streams.leafPointer {l : Leaf} (h : l.Storable) (a : Nat) :
    Streams (Wr.objectAny { cls := l.cls, addr := a, marshal := l.marshal }) (leafPointer (l, a)) :=
  Streams.pointer (o := { cls := l.cls, addr := a, marshal := l.marshal }) (Leaf.streams h) (Leaf.part_ignores a l)

theorem bMaxBaskets_eq (nb : Nat) : bMaxBaskets nb = (Nat.max 10 (nb + 1) : Nat) := by
  unfold bMaxBaskets
  split <;> simp only [Nat.max_def] <;> split <;> omega

theorem Streams.table {k : Nat} {put : Int → Wr Unit} (hput : ∀ v, Streams (put v) (.int k v)) {v : List Int} {n s : Nat}
    (hn : n ≤ v.length) (hs : n ≤ s) :
    Streams (Wr.paddedTable put v n s) (.seq (.raw [1] :: (padTo s (v.take n)).map (.int k))) := by
  unfold Wr.paddedTable
  rw [if_neg (by omega), if_neg (by omega)]
  refine Streams.cons (Streams.i8 1) ?_
  have e : ((s : Int) - (n : Int)).toNat = s - (v.take n).length := by
    rw [List.length_take, Nat.min_eq_left hn]; omega
  rw [e, Int.toNat_natCast, padTo, List.map_append]
  exact Streams.append (Streams.each fun a _ => hput a) (Streams.each fun a _ => hput a)

theorem padTo_length {n : Nat} {l : List Int} (h : l.length ≤ n) : (padTo n l).length = n := by
  unfold padTo; rw [List.length_append, List.length_replicate]; omega

theorem Member.part_table {all : List (Str × Member)} {k s : Nat} {count : Str} {l : List Int}
    (hc : all.lookup count = some (.int s)) (hs : 0 < s) (hl : l.length ≤ s) :
    (Member.ints (padTo s l)).part all (.table k count) = .seq (.raw [1] :: (padTo s l).map (.int k)) := by
  have h1 := padTo_length hl
  simp only [Member.part, hc]
  rw [if_pos (by rw [h1]), if_neg (by intro e; rw [e] at h1; simp at h1; omega)]

theorem BranchData.streams {d : BranchData} {nb : Nat} (h : d.Storable nb) (hio : d.iobits = 0) (leafAddrs : List Nat) :
    Streams (d.marshal [] leafAddrs) (d.part nb leafAddrs) := by
  have hcount : (d.members nb leafAddrs).lookup (b! "fMaxBaskets") = some (.int (Nat.max 10 (nb + 1) : Nat)) := rfl
  rw [BranchData.part, ClassRow.part_eq (v := 13)
    (ss := [(b! "TNamed", .inside), (b! "TAttFill", .inside), (b! "fCompress", .number 4), (b! "fBasketSize", .number 4),
      (b! "fEntryOffsetLen", .number 4), (b! "fWriteBasket", .number 4), (b! "fEntryNumber", .number 8),
      (b! "fIOFeatures", .inside), (b! "fOffset", .number 4), (b! "fMaxBaskets", .number 4), (b! "fSplitLevel", .number 4),
      (b! "fEntries", .number 8), (b! "fFirstEntry", .number 8), (b! "fTotBytes", .number 8), (b! "fZipBytes", .number 8),
      (b! "fBranches", .inside), (b! "fLeaves", .inside), (b! "fBaskets", .inside),
      (b! "fBasketBytes", .table 4 (b! "fMaxBaskets")), (b! "fBasketEntry", .table 8 (b! "fMaxBaskets")),
      (b! "fBasketSeek", .table 8 (b! "fMaxBaskets")), (b! "fFileName", .text)]) (by decide +kernel)]
  obtain ⟨all, hall⟩ : ∃ all, all = d.members nb leafAddrs := ⟨_, rfl⟩
  rw [← hall] at hcount
  have e : ∀ ss, membersPart (d.members nb leafAddrs) ss (d.members nb leafAddrs) =
      membersPart all ss (d.members nb leafAddrs) := fun ss => by rw [hall]
  rw [e]
  have hb := h.bytesLen
  have he := h.entryLen
  have hk := h.seekLen
  have hslots : nb + 1 ≤ Nat.max 10 (nb + 1) := Nat.le_max_right _ _
  have h10 : 10 ≤ Nat.max 10 (nb + 1) := Nat.le_max_left _ _
  have hmax := bMaxBaskets_eq nb
  simp only [BranchData.members, membersPart, if_true]
  generalize Nat.max 10 (nb + 1) = s at *
  rw [Member.part_table hcount (by omega) (by rw [List.length_take]; omega),
    Member.part_table hcount (by omega) (by rw [List.length_take]; omega),
    Member.part_table hcount (by omega) (by rw [List.length_take]; omega)]
  simp only [Member.part]
  unfold BranchData.marshal
  rw [h.writeBasket, hmax, hio]
  simp only [ne_eq, not_true_eq_false, if_false, h.noBaskets]
  have hleaves : Streams (TObjArray.marshal TObject.default none 0 ((d.leaves.zip leafAddrs).map fun p =>
      { cls := p.1.cls, addr := p.2, marshal := p.1.marshal })) (arrayPart ((d.leaves.zip leafAddrs).map leafPointer)) :=
    Streams.array rfl (Nat.lt_of_le_of_lt (by rw [List.length_zip]; omega) h.fewLeaves) fun p hp =>
      Streams.leafPointer (h.leaves p.1 (List.of_mem_zip hp).1) p.2
  have hnone : Streams (TObjArray.marshal TObject.default none 0 []) (arrayPart []) :=
    Streams.array (l := ([] : List Unit)) (f := fun _ => ⟨[], 0, Wr.panic⟩) (g := fun _ => .null) rfl (by simp)
      fun a ha => by cases ha
  exact Streams.guarded (Streams.counted (Streams.drop (Streams.framed (Streams.cons (TNamed.streams h.named).drop
    (Streams.cons d.attfill.streams.drop (Streams.cons (Streams.i32 _) (Streams.cons (Streams.i32 _)
    (Streams.cons (Streams.i32 _) (Streams.cons (Streams.i32 _) (Streams.cons (Streams.i64 _)
    (Streams.cons features_streams.drop (Streams.cons (Streams.i32 _) (Streams.cons (Streams.i32 _)
    (Streams.cons (Streams.i32 _) (Streams.cons (Streams.i64 _) (Streams.cons (Streams.i64 _) (Streams.cons (Streams.i64 _)
    (Streams.cons (Streams.i64 _) (Streams.cons hnone.drop (Streams.cons hleaves.drop (Streams.cons hnone.drop
    (Streams.cons (Streams.table Streams.i32 (by omega) (by omega))
    (Streams.cons (Streams.table (n := nb + 1) Streams.i64 (by omega) (by omega))
    (Streams.cons (Streams.table Streams.i64 (by omega) (by omega)) (Streams.last (Streams.text h.fname))))))))))))))))))))))))))

theorem Branch.streams {b : Branch} {nb : Nat} (h : b.Storable nb) (hio : b.data.iobits = 0) (leafAddrs : List Nat) :
    Streams (b.marshal leafAddrs) (b.part nb leafAddrs) := by
  have hd := BranchData.streams h.2.1 hio leafAddrs
  rw [← h.1] at hd
  unfold Branch.marshal Branch.part
  refine Streams.guarded ?_
  cases he : b.elem with
  | none => exact hd
  | some e =>
    dsimp only
    rw [ClassRow.part_eq (v := 10)
      (ss := [(b! "TBranch", .inside), (b! "fClassName", .text), (b! "fParentName", .text), (b! "fClonesName", .text),
        (b! "fCheckSum", .number 4), (b! "fClassVersion", .number 2), (b! "fID", .number 4), (b! "fType", .number 4),
        (b! "fStreamerType", .number 4), (b! "fMaximum", .number 4), (b! "fBranchCount", .pointer),
        (b! "fBranchCount2", .pointer)]) (by decide +kernel)]
    simp only [membersPart, if_true, Member.part]
    exact Streams.counted (Streams.drop (Streams.framed (Streams.cons hd.drop (Streams.cons (Streams.text (h.2.2 e he).className)
      (Streams.cons (Streams.text (h.2.2 e he).parent) (Streams.cons (Streams.text (h.2.2 e he).clones) (Streams.cons (Streams.i32 _)
      (Streams.cons (Streams.i16 _) (Streams.cons (Streams.i32 _) (Streams.cons (Streams.i32 _) (Streams.cons (Streams.i32 _)
      (Streams.cons (Streams.i32 _) (Streams.cons Streams.null.drop (Streams.last Streams.null.drop)))))))))))))) 

/-- What the format asks of a tree: `bs` are the branches with their numbers of baskets. -/
structure TreeData.Plain (t : TreeData) (bs : List (PlacedBranch × Nat)) : Prop where
  named : t.named.Fits
  branches : ∀ p ∈ bs, p.1.branch.Storable p.2 ∧ p.1.branch.data.iobits = 0 ∧ p.1.addr ∉ p.1.leafAddrs
  few : bs.length < 2 ^ 31
  fewLeaves : (bs.flatMap fun p => p.1.leaves).length < 2 ^ 31
  clusters : t.clusterRanges = [] ∧ t.clusterSizes = []
  iobits : t.iobits = 0

theorem TreeData.body_streams {t : TreeData} {bs : List (PlacedBranch × Nat)} (h : t.Plain bs) :
    ∃ body p, t.marshal (bs.map (·.1)) = Wr.framed 20 body ∧ t.part bs = .record 20 p ∧ Streams body p := by
  have hp : t.part bs = .record 20 (.seq (membersPart (t.members bs) [(b! "TNamed", .inside), (b! "TAttLine", .inside), (b! "TAttFill", .inside), (b! "TAttMarker", .inside),
        (b! "fEntries", .number 8), (b! "fTotBytes", .number 8), (b! "fZipBytes", .number 8), (b! "fSavedBytes", .number 8),
        (b! "fFlushedBytes", .number 8), (b! "fWeight", .number 8), (b! "fTimerInterval", .number 4),
        (b! "fScanField", .number 4), (b! "fUpdate", .number 4), (b! "fDefaultEntryOffsetLen", .number 4),
        (b! "fNClusterRange", .number 4), (b! "fMaxEntries", .number 8), (b! "fMaxEntryLoop", .number 8),
        (b! "fMaxVirtualSize", .number 8), (b! "fAutoSave", .number 8), (b! "fAutoFlush", .number 8),
        (b! "fEstimate", .number 8), (b! "fClusterRangeEnd", .table 8 (b! "fNClusterRange")),
        (b! "fClusterSize", .table 8 (b! "fNClusterRange")), (b! "fIOFeatures", .inside), (b! "fBranches", .inside),
        (b! "fLeaves", .inside), (b! "fAliases", .pointer), (b! "fIndexValues", .inside), (b! "fIndex", .inside),
        (b! "fTreeIndex", .pointer), (b! "fFriends", .pointer), (b! "fUserInfo", .pointer), (b! "fBranchRef", .pointer)]
      (t.members bs))) := ClassRow.part_eq (row := rowTTree) (by decide +kernel) _
  refine ⟨_, _, rfl, hp, ?_⟩
  have hcount : (t.members bs).lookup (b! "fNClusterRange") = some (.int (0 : Int)) := rfl
  obtain ⟨all, hall⟩ : ∃ all, all = t.members bs := ⟨_, rfl⟩
  rw [← hall] at hcount
  have e : ∀ ss, membersPart (t.members bs) ss (t.members bs) = membersPart all ss (t.members bs) :=
    fun ss => by rw [hall]
  rw [e]
  simp only [TreeData.members, membersPart, if_true, Member.part, hcount, h.clusters.1, h.clusters.2, h.iobits]
  have hz : Part.int 4 0 = .null := rfl
  rw [if_neg (by simp), if_pos (by simp), hz]
  have hbs : Streams (TObjArray.marshal TObject.default none 0 ((bs.map (·.1)).map PlacedBranch.obj))
      (arrayPart (bs.map PlacedBranch.pointer)) :=
    Streams.array (f := fun p => p.1.obj) (by rw [List.map_map]; rfl) h.few fun p hp =>
      have hb := h.branches p hp
      Streams.pointer (o := p.1.obj) (Branch.streams hb.1 hb.2.1 _) (Branch.part_ignores _ _ hb.2.2)
  have hls : Streams (TObjArray.marshal TObject.default none 0 ((bs.map (·.1)).flatMap PlacedBranch.leafObjs))
      (arrayPart ((bs.flatMap fun p => p.1.leaves).map leafPointer)) := by
    refine Streams.array (f := fun p => { cls := p.1.cls, addr := p.2, marshal := p.1.marshal }) ?_ h.fewLeaves ?_
    · rw [List.map_flatMap, List.flatMap_map]; rfl
    · intro p hp
      obtain ⟨b, hb, hp⟩ := List.mem_flatMap.1 hp
      exact Streams.leafPointer ((h.branches b hb).1.2.1.leaves p.1 (List.of_mem_zip hp).1) p.2
  exact Streams.cons (TNamed.streams h.named).drop (Streams.cons t.attline.streams.drop (Streams.cons t.attfill.streams.drop
    (Streams.cons t.attmarker.streams.drop (Streams.cons (Streams.i64 _) (Streams.cons (Streams.i64 _)
    (Streams.cons (Streams.i64 _) (Streams.cons (Streams.i64 _) (Streams.cons (Streams.i64 _) (Streams.cons (Streams.f64 _)
    (Streams.cons (Streams.i32 _) (Streams.cons (Streams.i32 _) (Streams.cons (Streams.i32 _) (Streams.cons (Streams.i32 _)
    (Streams.cons (Streams.i32 0) (Streams.cons (Streams.i64 _) (Streams.cons (Streams.i64 _) (Streams.cons (Streams.i64 _)
    (Streams.cons (Streams.i64 _) (Streams.cons (Streams.i64 _) (Streams.cons (Streams.i64 _)
    (Streams.cons (Streams.i8 0) <| Streams.skip (Streams.cons (Streams.i8 0) <| Streams.skip (Streams.cons features_streams.drop
    (Streams.cons hbs.drop (Streams.cons hls.drop
    (Streams.each (l := List.replicate 7 ()) (g := fun _ => .null) fun _ _ => Streams.null.drop))))))))))))))))))))))))))

/-! ### The descriptions of the classes -/

theorem StreamerElement.streams {e : StreamerElement} (h : e.Storable) : Streams e.marshal e.plain.part := by
  rw [StreamerElement.part, ClassRow.part_eq (v := 4)
    (ss := [(b! "TNamed", .inside), (b! "fType", .number 4), (b! "fSize", .number 4), (b! "fArrayLength", .number 4),
      (b! "fArrayDim", .number 4), (b! "fMaxIndex", .numbers 4 5), (b! "fTypeName", .text)]) (by decide +kernel)]
  have hm : e.plain.maxIdx = e.maxIdx ∧ e.plain.named = e.named ∧ e.plain.esize = e.esize ∧ e.plain.arrLen = e.arrLen ∧
      e.plain.arrDim = e.arrDim ∧ e.plain.ename = e.ename := by
    unfold StreamerElement.plain; split <;> exact ⟨rfl, rfl, rfl, rfl, rfl, rfl⟩
  have ht : e.plain.etype.toI32 = if e.etype = .named .tNamed then 0 else if e.etype = .named .tObject then 0
      else e.etype.toI32 := by
    unfold StreamerElement.plain
    by_cases h1 : e.etype = .named .tNamed
    · rw [if_pos (Or.inl h1), if_pos h1]; rfl
    · by_cases h2 : e.etype = .named .tObject
      · rw [if_pos (Or.inr h2), if_neg h1, if_pos h2]; rfl
      · rw [if_neg (fun h => h.elim h1 h2), if_neg h1, if_neg h2]
  simp only [membersPart, if_true, Member.part, hm.1, hm.2.1, hm.2.2.1, hm.2.2.2.1, hm.2.2.2.2.1, hm.2.2.2.2.2, h.five]
  unfold StreamerElement.marshal
  rw [ht]
  exact Streams.guarded (Streams.framed (Streams.cons (TNamed.streams h.named).drop (Streams.cons (Streams.i32 _)
    (Streams.cons (Streams.i32 _) (Streams.cons (Streams.i32 _) (Streams.cons (Streams.i32 _)
    (Streams.cons (Streams.each fun a _ => Streams.i32 a) (Streams.last (Streams.text h.ename)))))))))

theorem Streamer.streams {s : Streamer} (h : s.Storable) : Streams s.marshal s.plain.part := by
  cases s with
  | string e =>
    simp only [Streamer.plain, Streamer.part]
    rw [ClassRow.part_eq (v := 2) (ss := [(b! "TStreamerElement", .inside)]) (by decide +kernel)]
    simp only [membersPart, if_true, Member.part]
    exact Streams.guarded (Streams.framed (Streams.last (StreamerElement.streams h).drop))
  | basicType e =>
    simp only [Streamer.plain, Streamer.part]
    rw [ClassRow.part_eq (v := 2) (ss := [(b! "TStreamerElement", .inside)]) (by decide +kernel)]
    simp only [membersPart, if_true, Member.part]
    exact Streams.guarded (Streams.framed (Streams.last (StreamerElement.streams h.1).drop))
  | object e =>
    simp only [Streamer.plain, Streamer.part]
    rw [ClassRow.part_eq (v := 2) (ss := [(b! "TStreamerElement", .inside)]) (by decide +kernel)]
    simp only [membersPart, if_true, Member.part]
    exact Streams.guarded (Streams.framed (Streams.last (StreamerElement.streams h).drop))
  | objectPointer e =>
    simp only [Streamer.plain, Streamer.part]
    rw [ClassRow.part_eq (v := 2) (ss := [(b! "TStreamerElement", .inside)]) (by decide +kernel)]
    simp only [membersPart, if_true, Member.part]
    exact Streams.guarded (Streams.framed (Streams.last (StreamerElement.streams h).drop))
  | objectAny e =>
    simp only [Streamer.plain, Streamer.part]
    rw [ClassRow.part_eq (v := 2) (ss := [(b! "TStreamerElement", .inside)]) (by decide +kernel)]
    simp only [membersPart, if_true, Member.part]
    exact Streams.guarded (Streams.framed (Streams.last (StreamerElement.streams h).drop))
  | base e v =>
    simp only [Streamer.plain, Streamer.part]
    rw [ClassRow.part_eq (v := 3) (ss := [(b! "TStreamerElement", .inside), (b! "fBaseVersion", .number 4)])
      (by decide +kernel)]
    simp only [membersPart, if_true, Member.part]
    exact Streams.guarded (Streams.framed (Streams.cons (StreamerElement.streams h.1).drop (Streams.last (Streams.i32 _))))
  | basicPointer e v n c =>
    simp only [Streamer.plain, Streamer.part]
    rw [ClassRow.part_eq (v := 2) (ss := [(b! "TStreamerElement", .inside), (b! "fCountVersion", .number 4),
      (b! "fCountName", .text), (b! "fCountClass", .text)]) (by decide +kernel)]
    simp only [membersPart, if_true, Member.part]
    exact Streams.guarded (Streams.framed (Streams.cons (StreamerElement.streams h.1).drop (Streams.cons (Streams.i32 _)
      (Streams.cons (Streams.text h.2.2.1) (Streams.last (Streams.text h.2.2.2))))))
  | stl e v c =>
    simp only [Streamer.plain, Streamer.part]
    rw [ClassRow.part_eq (v := 3) (ss := [(b! "TStreamerElement", .inside), (b! "fSTLtype", .number 4),
      (b! "fCtype", .number 4)]) (by decide +kernel)]
    simp only [membersPart, if_true, Member.part]
    exact Streams.guarded (Streams.framed (Streams.cons (StreamerElement.streams h.1).drop (Streams.cons (Streams.i32 _)
      (Streams.last (Streams.i32 _)))))
  | stlString e v c => exact h.elim

theorem StreamerElement.part_ignores (id : Nat) (e : StreamerElement) : e.part.Ignores id := by
  refine ClassRow.part_ignores fun x hx => ?_
  simp only [List.mem_cons, List.not_mem_nil, or_false] at hx
  rcases hx with rfl | rfl | rfl | rfl | rfl | rfl | rfl
  · exact TNamed.part_ignores id _
  all_goals trivial

theorem Streamer.part_ignores (id : Nat) (s : Streamer) : s.part.Ignores id := by
  have hstl : ∀ e : StreamerElement, ∀ v c, (rowTStreamerSTL.part [(b! "TStreamerElement", .inside e.part),
      (b! "fSTLtype", .int v), (b! "fCtype", .int c)]).Ignores id := by
    intro e v c
    refine ClassRow.part_ignores fun x hx => ?_
    simp only [List.mem_cons, List.not_mem_nil, or_false] at hx
    rcases hx with rfl | rfl | rfl
    · exact e.part_ignores id
    all_goals trivial
  cases s <;> unfold Streamer.part <;> refine ClassRow.part_ignores fun x hx => ?_ <;>
    simp only [List.mem_cons, List.not_mem_nil, or_false] at hx
  case string e => subst hx; exact e.part_ignores id
  case basicType e => subst hx; exact e.part_ignores id
  case object e => subst hx; exact e.part_ignores id
  case objectPointer e => subst hx; exact e.part_ignores id
  case objectAny e => subst hx; exact e.part_ignores id
  case stlString e v c => subst hx; exact hstl e _ _
  case base e v =>
    rcases hx with rfl | rfl
    · exact e.part_ignores id
    · trivial
  case basicPointer e v n c =>
    rcases hx with rfl | rfl | rfl | rfl
    · exact e.part_ignores id
    all_goals trivial
  case stl e v c =>
    rcases hx with rfl | rfl | rfl
    · exact e.part_ignores id
    all_goals trivial

theorem Streamer.plain_cls (s : Streamer) : s.plain.cls = s.cls := by cases s <;> rfl

theorem Streamer.plain_id (s : Streamer) : s.plain.element.id = s.element.id := by
  have h : ∀ e : StreamerElement, e.plain.id = e.id := by intro e; unfold StreamerElement.plain; split <;> rfl
  cases s <;> exact h _

/-- A description that can be written: each member can, and the list of the members is another object than they. -/
structure StreamerInfo.Writable (s : StreamerInfo) : Prop where
  named : s.named.Fits
  elems : ∀ e ∈ s.elems, e.Storable ∧ e.element.id ≠ s.id
  few : s.elems.length < 2 ^ 31

theorem StreamerInfo.array_ignores {id : Nat} {l : List Streamer} (h : ∀ e ∈ l, e.element.id ≠ id) :
    (arrayPart (l.map fun e => .pointer e.element.id e.cls e.part)).Ignores id := by
  unfold arrayPart
  refine Part.Ignores.record (Part.Ignores.seq fun p hp => ?_)
  rcases List.mem_append.1 hp with hp | hp
  · simp only [List.mem_cons, List.not_mem_nil, or_false] at hp
    rcases hp with rfl | rfl | rfl | rfl
    · exact TObject.part_ignores id _
    all_goals exact Part.Ignores.raw id _
  · obtain ⟨e, he, rfl⟩ := List.mem_map.1 hp
    exact Part.Ignores.pointer (e.part_ignores id) (h e he)

theorem StreamerInfo.streams {s : StreamerInfo} (h : s.Writable) : Streams s.marshal s.plain.recordPart := by
  have ha : Streams s.elemsObj.marshal
      (arrayPart (s.plain.elems.map fun e => .pointer e.element.id e.cls e.part)) := by
    have e1 : (s.plain.elems.map fun e => Part.pointer e.element.id e.cls e.part) =
        s.elems.map fun e => Part.pointer e.element.id e.cls e.plain.part := by
      simp only [StreamerInfo.plain, List.map_map]
      exact List.map_congr_left fun e _ => by simp [Streamer.plain_cls, Streamer.plain_id]
    rw [e1]
    exact Streams.guarded (Streams.array rfl h.few fun e he =>
      Streams.pointer (o := { cls := e.cls, addr := e.element.id, marshal := e.marshal })
        (Streamer.streams (h.elems e he).1) (Streamer.part_ignores _ _))
  refine Streams.guarded (Streams.framed (Streams.cons (TNamed.streams h.named).drop (Streams.cons (Streams.u32 _)
    (Streams.cons (Streams.i32 _) (Streams.last (Streams.pointer (o := s.elemsObj) ha
      (StreamerInfo.array_ignores fun e he => ?_)).drop)))))
  obtain ⟨e', he', rfl⟩ := List.mem_map.1 he
  rw [Streamer.plain_id]
  exact (h.elems e' he').2

theorem StreamerInfo.record_ignores {id : Nat} {s : StreamerInfo} (h1 : s.id ≠ id)
    (h2 : ∀ e ∈ s.elems, e.element.id ≠ id) : s.recordPart.Ignores id := by
  unfold StreamerInfo.recordPart
  refine Part.Ignores.record (Part.Ignores.seq fun p hp => ?_)
  simp only [List.mem_cons, List.not_mem_nil, or_false] at hp
  rcases hp with rfl | rfl | rfl | rfl
  · exact TNamed.part_ignores id _
  · exact Part.Ignores.raw id _
  · exact Part.Ignores.raw id _
  · exact Part.Ignores.pointer (StreamerInfo.array_ignores h2) h1

/-- The records of a session with their addresses. -/
def placedList (env : Env) : Nat → List StreamerInfo → List (StreamerInfo × Nat)
  | _, [] => []
  | i, s :: ss => (s.plain, env.addr i) :: placedList env (i + 1) ss

theorem placedList_length (env : Env) : ∀ (i : Nat) (l : List StreamerInfo), (placedList env i l).length = l.length
  | _, [] => rfl
  | i, _ :: ss => congrArg (· + 1) (placedList_length env (i + 1) ss)

theorem placedInfos_streams {env : Env} : ∀ {l : List StreamerInfo} {i : Nat},
    (∀ s ∈ l, s.Writable) → (∀ s ∈ l, ∀ j, s.id ≠ env.addr j ∧ ∀ e ∈ s.elems, e.element.id ≠ env.addr j) →
    Streams (Wr.each (fun o => do
        Wr.drop (Wr.objectAny o)
        Wr.string []) (placedInfos env i l))
      (.seq (((placedList env i l).map fun p => Part.pointer p.2 (b! "TStreamerInfo") p.1.recordPart).map
        fun p => .seq [p, .str []]))
  | [], _, _, _ => Streams.nil
  | s :: l, i, hw, ha => by
    refine Streams.cons (Streams.cons (Streams.pointer
      (o := { cls := b! "TStreamerInfo", addr := env.addr i, marshal := s.marshal })
      (StreamerInfo.streams (hw s List.mem_cons_self)) ?_).drop (Streams.last (Streams.string (s := []) (by decide))))
      (placedInfos_streams (fun x hx => hw x (List.mem_cons_of_mem _ hx)) fun x hx => ha x (List.mem_cons_of_mem _ hx))
    have h := ha s List.mem_cons_self i
    refine StreamerInfo.record_ignores h.1 fun e he => ?_
    obtain ⟨e', he', rfl⟩ := List.mem_map.1 he
    rw [Streamer.plain_id]
    exact h.2 e' he'

theorem placedInfos_length (env : Env) : ∀ (i : Nat) (l : List StreamerInfo), (placedInfos env i l).length = l.length
  | _, [] => rfl
  | i, _ :: ss => congrArg (· + 1) (placedInfos_length env (i + 1) ss)

/-! ### Records from their first byte -/

theorem Marked.new (o : Nat) : Marked (WBuffer.new o) Marks.empty :=
  ⟨rfl, fun _ => rfl, fun _ => rfl, fun _ _ h => by cases h⟩

theorem record_run {vers : Int} {body : Wr Unit} {p : Part} (hs : Streams body p) (o : Nat) :
    ∃ bytes m', Part.record vers p o Marks.empty = some (bytes, m') ∧
      (o + bytes.length < 2 ^ 30 →
        ∃ w, Wr.framed vers body (WBuffer.new o) = .ok (bytes.length, w) ∧ w.p = bytes ∧ w.offset = o ∧ w.WF) ∧
      (∀ a w, Wr.framed vers body (WBuffer.new o) = .ok (a, w) → w.c + w.offset < 2 ^ 30 → o + bytes.length < 2 ^ 30) := by
  obtain ⟨b, m', hb⟩ := hs.1 (o + 6) Marks.empty
  obtain ⟨r, hp⟩ : ∃ r, Part.record vers p o Marks.empty = some (r, m') := by
    unfold Part.record; rw [hb]; exact ⟨_, rfl⟩
  have h0 : (WBuffer.new o).c + (WBuffer.new o).offset = o := Nat.zero_add o
  refine ⟨r, m', hp, fun hlt => ?_, fun a w e hlt => ?_⟩
  · obtain ⟨w', e, hw, ho, hm⟩ := Streams.framed_run hs (WBuffer.new o) Marks.empty r m' (Marked.new o)
      (by rw [h0]; exact hp) (by rw [h0]; exact hlt)
    exact ⟨w', e, hw, ho, hm.wf⟩
  · have := Streams.framed_fits hs (WBuffer.new o) Marks.empty r m' (Marked.new o) (by rw [h0]; exact hp) a w e hlt
    rw [h0] at this
    exact this

/-- What a writer makes of an empty buffer is what the format asks for, as long as either is short. -/
def Wr.Makes (wr : Wr Nat) (p : Part) (o : Nat) : Prop :=
  ∃ bytes m', p o Marks.empty = some (bytes, m') ∧
    (o + bytes.length < 2 ^ 30 → ∃ w, wr (WBuffer.new o) = .ok (bytes.length, w) ∧ w.p = bytes) ∧
    ∀ n w, wr (WBuffer.new o) = .ok (n, w) → o + w.p.length < 2 ^ 30 → w.p = bytes ∧ n = bytes.length

theorem framed_makes {vers : Int} {body : Wr Unit} {p : Part} (hs : Streams body p) (o : Nat) :
    (Wr.framed vers body).Makes (.record vers p) o := by
  obtain ⟨bytes, m', hp, hr, hf⟩ := Verif.record_run (vers := vers) hs o
  refine ⟨bytes, m', hp, fun hlt => let ⟨w, e, hw, _⟩ := hr hlt; ⟨w, e, hw⟩, fun n w e hlt => ?_⟩
  have hg : (Wr.framed vers body (WBuffer.new o)) = .ok (n, w) → w.WF ∧ w.offset = o := by
    intro e
    unfold Wr.framed at e
    rw [Wr.bind_ok (Wr.header_eq vers _)] at e
    obtain ⟨x, w2, r2, e⟩ := Wr.bind_back e
    have hne : ((WBuffer.new o).app (beBytes 4 0 ++ beBytes 2 (wrapI 2 vers))).p ≠ [] := by simp [beBytes]
    have hwf : ((WBuffer.new o).app (beBytes 4 0 ++ beBytes 2 (wrapI 2 vers))).WF := (Marked.new o).wf.app _
    obtain ⟨g1, g2, g3⟩ := hs.grows _ _ _ hwf hne r2
    have hg : (Wr.setHeader { pos := (WBuffer.new o).c + (WBuffer.new o).offset, vers := vers }).Grows :=
      Wr.Grows.pos.bind fun _ => (Wr.Grows.inPlace _ _).bind fun _ => Wr.Grows.pure _
    obtain ⟨g4, g5, g6⟩ := hg _ _ _ g1 (hwf.ne g1 hne g3) e
    exact ⟨g4, g5.trans g2⟩
  obtain ⟨h1, h2⟩ := hg e
  have hc : w.c = w.p.length := h1
  obtain ⟨w', e', hw', -⟩ := hr (hf n w e (by omega))
  rw [e] at e'
  cases e'
  exact ⟨hw', rfl⟩

theorem TreeData.makes {t : TreeData} {bs : List (PlacedBranch × Nat)} (h : t.Plain bs) (o : Nat) :
    (t.marshal (bs.map (·.1))).Makes (t.part bs) o := by
  obtain ⟨body, p, e1, e2, hs⟩ := TreeData.body_streams h
  rw [e1, e2]
  exact framed_makes hs o

theorem infos_makes {env : Env} {l : List StreamerInfo} (hw : ∀ s ∈ l, s.Writable)
    (ha : ∀ s ∈ l, ∀ j, s.id ≠ env.addr j ∧ ∀ e ∈ s.elems, e.element.id ≠ env.addr j) (hl : l.length < 2 ^ 31)
    (o : Nat) : (TList.marshal TObject.default none (placedInfos env 0 l)).Makes (infosPart (placedList env 0 l)) o := by
  have hs := Streams.cons TObject.default.streams.drop (Streams.cons (Streams.string (s := []) (by decide))
    (Streams.cons (Streams.i32 l.length) (placedInfos_streams (i := 0) hw ha)))
  obtain ⟨bytes, m', hp, hr, hf⟩ := framed_makes (vers := 5) hs o
  have hp' : infosPart (placedList env 0 l) o Marks.empty = some (bytes, m') := by
    rw [← hp]
    unfold infosPart listPart
    rw [List.length_map, placedList_length]
    rfl
  have heq : ∀ n w, TList.marshal TObject.default none (placedInfos env 0 l) (WBuffer.new o) = .ok (n, w) →
      ∃ a, Wr.framed 5 (do
      TObject.default.marshal.drop
      Wr.string []
      Wr.i32 l.length
      Wr.each (fun o => do
        Wr.drop (Wr.objectAny o)
        Wr.string []) (placedInfos env 0 l)) (WBuffer.new o) = .ok (a, w) ∧ n = w.c + w.offset - (0 + o) := by
    intro n w e
    unfold TList.marshal Wr.counted at e
    rw [placedInfos_length, Nat.mod_eq_of_lt (by omega), toSigned_of_lt (by omega),
      Wr.bind_ok (a := 0 + o) (w' := WBuffer.new o) rfl] at e
    obtain ⟨x, w2, r2, e⟩ := Wr.bind_back e
    obtain ⟨y, w3, r3, r2⟩ := Wr.bind_back r2
    cases r2
    rw [Wr.bind_ok (a := w2.c + w2.offset) (w' := w2) rfl] at e
    cases e
    exact ⟨_, r3, rfl⟩
  have hback : ∀ w, Wr.framed 5 (do
      TObject.default.marshal.drop
      Wr.string []
      Wr.i32 l.length
      Wr.each (fun o => do
        Wr.drop (Wr.objectAny o)
        Wr.string []) (placedInfos env 0 l)) (WBuffer.new o) = .ok (bytes.length, w) → w.WF → w.offset = o →
      w.p = bytes → TList.marshal TObject.default none (placedInfos env 0 l) (WBuffer.new o) = .ok (bytes.length, w) := by
    intro w e hwf ho hb
    have hc : w.c = w.p.length := hwf
    unfold TList.marshal Wr.counted
    rw [placedInfos_length, Nat.mod_eq_of_lt (by omega), toSigned_of_lt (by omega)]
    rw [Wr.bind_ok (a := 0 + o) (w' := WBuffer.new o) rfl, Wr.bind_ok (a := ()) (w' := w)]
    · show Except.ok (w.c + w.offset - (0 + o), w) = _
      rw [hc, ho, hb]
      congr 2
      omega
    · exact Wr.bind_ok e
  refine ⟨bytes, m', hp', fun hlt => ?_, fun n w e hlt => ?_⟩
  · obtain ⟨bytes', m1, hp1, hr1, -⟩ := Verif.record_run (vers := 5) hs o
    rw [hp] at hp1
    cases hp1
    obtain ⟨w, e, hb, ho, hwf⟩ := hr1 hlt
    exact ⟨w, hback w e hwf ho hb, hb⟩
  · obtain ⟨a, e1, hn⟩ := heq n w e
    obtain ⟨h1, h2⟩ := hf a w e1 hlt
    obtain ⟨bytes', m1, hp1, hr1, -⟩ := Verif.record_run (vers := 5) hs o
    rw [hp] at hp1
    cases hp1
    obtain ⟨w', e', hb, ho, hwf⟩ := hr1 (by rw [← h1]; exact hlt)
    rw [hback w' e' hwf ho hb] at e
    cases e
    exact ⟨h1, rfl⟩

end Verif
