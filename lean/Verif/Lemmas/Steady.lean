import Verif.Spec.Counts
import Verif.Lemmas.Buf
/-
Writers that only append, and report how much.
-/
namespace Verif

/-- `m` keeps the buffer consistent and what is in it. -/
def Steady {α} (m : Wr α) : Prop :=
  ∀ (w w' : WBuffer) (a : α), w.WF → m w = .ok (a, w') →
    w'.WF ∧ w'.offset = w.offset ∧ w.p <+: w'.p

/-- And returns the number of bytes appended. -/
def Honest (m : Wr Nat) : Prop :=
  ∀ (w w' : WBuffer) (n : Nat), w.WF → m w = .ok (n, w') →
    w'.WF ∧ w'.offset = w.offset ∧ w.p <+: w'.p ∧ w'.p.length = w.p.length + n

theorem Honest.steady {m : Wr Nat} (h : Honest m) : Steady m := fun w w' a hw he =>
  let ⟨h1, h2, h3, _⟩ := h w w' a hw he
  ⟨h1, h2, h3⟩

theorem Honest.counts {m : Wr Nat} (h : Honest m) : CountsItsBytes m := fun w w' n hw he => by
  obtain ⟨-, -, ⟨bs, hb⟩, h4⟩ := h w w' n hw he
  refine ⟨bs, hb.symm, ?_⟩
  rw [← hb] at h4
  simp at h4
  exact h4

theorem Wr.bind_inv {α β} {m : Wr α} {f : α → Wr β} {w : WBuffer} {b w''}
    (h : (m >>= f) w = .ok (b, w'')) : ∃ a w', m w = .ok (a, w') ∧ f a w' = .ok (b, w'') := by
  cases hm : m w with
  | error e => rw [Wr.bind_err hm] at h; exact absurd h (by simp)
  | ok x =>
    obtain ⟨a, w'⟩ := x
    rw [Wr.bind_ok hm] at h
    exact ⟨a, w', rfl, h⟩

theorem Steady.pure {α} (a : α) : Steady (Pure.pure a : Wr α) := by
  intro w w' b hw he
  cases he
  exact ⟨hw, rfl, List.prefix_refl _⟩

theorem Steady.bind {α β} {m : Wr α} {f : α → Wr β} (h1 : Steady m) (h2 : ∀ a, Steady (f a)) :
    Steady (m >>= f) := by
  intro w w'' b hw he
  obtain ⟨a, w', ha, hb⟩ := Wr.bind_inv he
  obtain ⟨p1, p2, p3⟩ := h1 w w' a hw ha
  obtain ⟨q1, q2, q3⟩ := h2 a w' w'' b p1 hb
  exact ⟨q1, q2.trans p2, p3.trans q3⟩

theorem Steady.fail {α} (e : Err) : Steady (Wr.fail e : Wr α) := fun _ _ _ _ h => nomatch h
theorem Steady.panic {α} : Steady (Wr.panic : Wr α) := fun _ _ _ _ h => nomatch h

theorem Honest.panic : Honest Wr.panic := fun _ _ _ _ h => nomatch h

theorem Steady.ite {α} {c : Prop} [Decidable c] {m n : Wr α} (h1 : Steady m) (h2 : Steady n) :
    Steady (if c then m else n) := by split <;> assumption

theorem Steady.bytes (bs : List Byte) : Steady (Wr.bytes bs) := by
  intro w w' a hw he
  cases he
  refine ⟨?_, rfl, List.prefix_append _ _⟩
  show w.c + bs.length = (w.p ++ bs).length
  rw [List.length_append, ← show w.c = w.p.length from hw]

theorem Steady.state {α} {m : Wr α} (h : ∀ w w' a, m w = .ok (a, w') →
    w'.p = w.p ∧ w'.c = w.c ∧ w'.offset = w.offset) : Steady m := by
  intro w w' a hw he
  obtain ⟨h1, h2, h3⟩ := h w w' a he
  refine ⟨?_, h3, by rw [h1]; exact List.prefix_refl _⟩
  show w'.c = w'.p.length
  rw [h1, h2]
  exact hw

theorem Steady.pos : Steady Wr.pos := .state fun w w' a h => by cases h; exact ⟨rfl, rfl, rfl⟩
theorem Steady.refP (a) : Steady (Wr.refP a) := .state fun w w' a h => by cases h; exact ⟨rfl, rfl, rfl⟩
theorem Steady.refS (a) : Steady (Wr.refS a) := .state fun w w' a h => by cases h; exact ⟨rfl, rfl, rfl⟩
theorem Steady.setRefP (a b) : Steady (Wr.setRefP a b) :=
  .state fun w w' a h => by cases h; exact ⟨rfl, rfl, rfl⟩
theorem Steady.setRefS (a b) : Steady (Wr.setRefS a b) :=
  .state fun w w' a h => by cases h; exact ⟨rfl, rfl, rfl⟩
theorem Steady.lenMinusOne : Steady Wr.lenMinusOne := .state fun w w' a h => by
  unfold Wr.lenMinusOne at h
  split at h
  · cases h
  · cases h; exact ⟨rfl, rfl, rfl⟩

theorem Steady.each {α} {f : α → Wr Unit} (l : List α) (h : ∀ a ∈ l, Steady (f a)) :
    Steady (Wr.each f l) := by
  induction l with
  | nil => exact .pure _
  | cons a as ih =>
    exact (h a (by simp)).bind fun _ => ih fun b hb => h b (by simp [hb])

theorem Steady.drop {α} {m : Wr α} (h : Steady m) : Steady (Wr.drop m) := h.bind fun _ => .pure _

theorem Steady.string (s : Str) : Steady (Wr.string s) := by
  unfold Wr.string
  dsimp only
  refine .ite ((Steady.bytes _).bind fun _ => .ite (.bytes _) (.pure _))
    ((Steady.bytes _).bind fun _ => (Steady.bytes _).bind fun _ => .bytes _)

theorem Steady.cstring (s : Str) : Steady (Wr.cstring s) := (Steady.bytes _).bind fun _ => .bytes _

theorem Steady.objectNil : Steady Wr.objectNil := (Steady.bytes _).bind fun _ => .pure _

theorem Honest.counted {m : Wr Unit} (h : Steady m) : Honest (Wr.counted m) := by
  intro w w' n hw he
  unfold Wr.counted at he
  rw [Wr.bind_ok (a := w.c + w.offset) (w' := w) rfl] at he
  obtain ⟨a, w1, h1, he⟩ := Wr.bind_inv he
  rw [Wr.bind_ok (a := w1.c + w1.offset) (w' := w1) rfl] at he
  cases he
  obtain ⟨p1, p2, p3⟩ := h w w' a hw h1
  refine ⟨p1, p2, p3, ?_⟩
  have e1 : w'.c = w'.p.length := p1
  have e0 : w.c = w.p.length := hw
  have := p3.length_le
  rw [p2, e1, e0]
  omega

/-- Patching four bytes of what was appended after `w`. -/
theorem Wr.inPlace_keeps {w0 w w' : WBuffer} {bs : List Byte} {a}
    (hp : w0.p <+: w.p) (h : Wr.inPlace bs (w0.p.length + w.offset) w = .ok (a, w')) :
    w'.c = w.c ∧ w'.offset = w.offset ∧ w0.p <+: w'.p ∧ w'.p.length = w.p.length := by
  unfold Wr.inPlace at h
  rw [if_neg (by omega)] at h
  split at h
  · next hl =>
    cases h
    have e : w0.p.length + w.offset - w.offset = w0.p.length := by omega
    rw [e] at hl ⊢
    refine ⟨rfl, rfl, ?_, ?_⟩
    · obtain ⟨t, ht⟩ := hp
      refine ⟨bs ++ w.p.drop (w0.p.length + bs.length), ?_⟩
      rw [← ht]
      simp
    · simp only [List.length_append, List.length_take, List.length_drop]
      omega
  · cases h

theorem Honest.framed {vers : Int} {body : Wr Unit} (h : Steady body) : Honest (Wr.framed vers body) := by
  intro w w' n hw he
  unfold Wr.framed at he
  rw [Wr.bind_ok (Wr.header_eq vers w)] at he
  obtain ⟨a, w1, h1, he⟩ := Wr.bind_inv he
  obtain ⟨p1, p2, p3⟩ := h _ w1 a (hw.app _) h1
  have hpre : w.p <+: w1.p := (List.prefix_append _ _).trans p3
  have e0 : w.c = w.p.length := hw
  have e1 : w1.c = w1.p.length := p1
  have p2 : w1.offset = w.offset := p2
  unfold Wr.setHeader at he
  rw [Wr.bind_ok (a := w1.c + w1.offset) (w' := w1) rfl] at he
  obtain ⟨u, w2, h2, he⟩ := Wr.bind_inv he
  cases he
  dsimp only at h2 ⊢
  rw [e0, ← p2] at h2
  obtain ⟨q1, q2, q3, q4⟩ := Wr.inPlace_keeps hpre h2
  refine ⟨?_, q2.trans p2, q3, ?_⟩
  · show w'.c = w'.p.length
    rw [q1, e1, q4]
  · have hl := p3.length_le
    simp [beBytes_length] at hl
    rw [q4, p2, e1, e0]
    omega

theorem Steady.writeClass (beg : Nat) {o : WObj} (h : Steady o.marshal) :
    Steady (Wr.writeClass beg o) := by
  unfold Wr.writeClass
  refine Steady.lenMinusOne.bind fun _ => Steady.pos.bind fun start => (Steady.refP _).bind fun r => ?_
  cases r with
  | some r => exact (Steady.bytes _).bind fun _ => Steady.pos.bind fun _ => .pure _
  | none =>
    refine (Steady.refS _).bind fun r => ?_
    cases r with
    | some r =>
      exact (Steady.bytes _).bind fun _ => h.drop.bind fun _ => (Steady.setRefP _ _).bind fun _ =>
        Steady.pos.bind fun _ => .pure _
    | none =>
      exact (Steady.bytes _).bind fun _ => (Steady.cstring _).bind fun _ =>
        (Steady.setRefS _ _).bind fun _ => (Steady.setRefP _ _).bind fun _ => h.drop.bind fun _ =>
        Steady.pos.bind fun _ => .pure _

theorem Honest.objectAny {o : WObj} (h : Steady o.marshal) : Honest (Wr.objectAny o) := by
  intro w w' n hw he
  unfold Wr.objectAny at he
  rw [Wr.bind_ok (a := w.c + w.offset) (w' := w) rfl] at he
  obtain ⟨u, w0, h0, he⟩ := Wr.bind_inv he
  obtain ⟨a1, a2, a3⟩ := Steady.lenMinusOne w w0 u hw h0
  obtain ⟨u, w1, h1, he⟩ := Wr.bind_inv he
  obtain ⟨b1, b2, b3⟩ := (Steady.bytes _) w0 w1 u a1 h1
  obtain ⟨bc, w2, h2, he⟩ := Wr.bind_inv he
  obtain ⟨c1, c2, c3⟩ := (Steady.writeClass _ h) w1 w2 bc b1 h2
  obtain ⟨u, w3, h3, he⟩ := Wr.bind_inv he
  have hoff : w2.offset = w.offset := c2.trans (b2.trans a2)
  have hpre : w.p <+: w2.p := a3.trans (b3.trans c3)
  have e0 : w.c = w.p.length := hw
  have e2 : w2.c = w2.p.length := c1
  rw [e0, ← hoff] at h3
  obtain ⟨q1, q2, q3, q4⟩ := Wr.inPlace_keeps hpre h3
  rw [Wr.bind_ok (a := w3.c + w3.offset) (w' := w3) rfl] at he
  cases he
  refine ⟨?_, q2.trans hoff, q3, ?_⟩
  · show w'.c = w'.p.length
    rw [q1, e2, q4]
  · have := hpre.length_le
    rw [q2, hoff, q1, e0, q4, e2]
    omega

theorem Honest.afterCheck {m : Wr Nat} (h : Honest m) : Honest (do Wr.lenMinusOne; m) := by
  intro w w' n hw he
  obtain ⟨u, w0, h0, he2⟩ := Wr.bind_inv he
  have : w0 = w := by
    unfold Wr.lenMinusOne at h0
    split at h0
    · cases h0
    · cases h0; rfl
  rw [this] at he2
  exact h _ _ _ hw he2

/-- Proves that a `do` block only appends. -/
syntax "steady" : tactic
macro_rules | `(tactic| steady) => `(tactic| repeat' first
  | with_reducible exact Steady.pure _
  | with_reducible exact Steady.panic | with_reducible exact Steady.fail _
  | with_reducible exact Steady.string _
  | exact Steady.bytes _
  | with_reducible assumption
  | with_reducible apply_assumption
  | with_reducible refine Steady.drop ?_
  | with_reducible refine Steady.bind ?_ fun _ => ?_
  | with_reducible refine Steady.ite ?_ ?_)

end Verif
