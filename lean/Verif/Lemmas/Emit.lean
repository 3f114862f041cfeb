import Verif.Model.Refs
import Verif.Lemmas.Objects
/-
Lock-step simulation of a writer and a reader whose bytes depend on their position and on the
tables of classes and objects already written.
-/
namespace Verif

/-- The addresses in the table of written objects are exactly `K`. -/
def Knows (w : WBuffer) (K : Nat → Prop) : Prop := ∀ a, (w.refsP.lookup a).isSome = true ↔ K a

/-- The writer's state is consistent: counter and data agree, object tags point back. -/
structure WInv (w : WBuffer) : Prop where
  wf : w.WF
  tags : ∀ a t, w.refsP.lookup a = some t → 2 ≤ t ∧ t < w.c + w.offset

/-- Every class the writer refers to by tag is known to the reader under that tag. -/
def ClassRel (w : WBuffer) (r : RBuffer) : Prop :=
  ∀ cls t, w.refsS.lookup cls = some t →
    ∃ k, t = 2 ^ 31 + k ∧ k < w.c + w.offset ∧ r.refs.lookup k = some cls

/-- Largest position covered by the format: byte counts and tags have 30 bits. -/
def posLimit : Nat := 2 ^ 30

/-- From any state that knows the objects `K`, `m` appends some bytes, knows `K'` afterwards and
returns `ret` of their number; and `rd`, started at the same position on any data that continue with
these bytes, gives `v` and ends right after them. -/
def Emit {α β} (ne : Bool) (K K' : Nat → Prop) (m : Wr α) (ret : Nat → α) (rd : Rd β) (v : β) :
    Prop :=
  ∀ w : WBuffer, WInv w → (ne = true → w.p ≠ []) → Knows w K →
    ∃ bs w', m w = .ok (ret bs.length, w') ∧ w'.p = w.p ++ bs ∧ WInv w' ∧ w'.offset = w.offset ∧
      Knows w' K' ∧
      (w'.c + w'.offset < posLimit → ∀ r : RBuffer, r.skip = none → r.c ≤ r.p.length →
        r.c = w.p.length → r.offset = w.offset → bs <+: r.rest → ClassRel w r →
        ∃ r', rd r = .ok (v, r') ∧ r'.p = r.p ∧ r'.c = r.c + bs.length ∧ r'.offset = r.offset ∧
          r'.skip = none ∧ ClassRel w' r')

/-- The same from any state that knows none of the addresses `S`; afterwards it knows them all. -/
def EmitS {α β} (ne : Bool) (S : List Nat) (m : Wr α) (ret : Nat → α) (rd : Rd β) (v : β) : Prop :=
  ∀ K : Nat → Prop, (∀ a ∈ S, ¬ K a) → Emit ne K (fun a => K a ∨ a ∈ S) m ret rd v

theorem Emit.weaken {α β} {K K'} {m : Wr α} {ret} {rd : Rd β} {v} {ne}
    (h : Emit false K K' m ret rd v) : Emit ne K K' m ret rd v :=
  fun w hw _ hk => h w hw (by simp) hk

theorem Emit.ne {α β} {K K'} {m : Wr α} {ret} {rd : Rd β} {v} {ne}
    (h : Emit ne K K' m ret rd v) : Emit true K K' m ret rd v :=
  fun w hw hne hk => h w hw (fun _ => hne rfl) hk

theorem EmitS.weaken {α β} {S} {m : Wr α} {ret} {rd : Rd β} {v} {ne}
    (h : EmitS false S m ret rd v) : EmitS ne S m ret rd v := fun K hK => (h K hK).weaken

theorem Emit.congrK {α β} {ne K K' L L'} {m : Wr α} {ret} {rd : Rd β} {v}
    (h : Emit ne K K' m ret rd v) (hK : ∀ a, K a ↔ L a) (hK' : ∀ a, K' a ↔ L' a) :
    Emit ne L L' m ret rd v := by
  have e1 : K = L := funext fun a => propext (hK a)
  have e2 : K' = L' := funext fun a => propext (hK' a)
  exact e1 ▸ e2 ▸ h

theorem EmitS.congrS {α β} {ne S T} {m : Wr α} {ret} {rd : Rd β} {v}
    (h : EmitS ne S m ret rd v) (hS : ∀ a, a ∈ S ↔ a ∈ T) : EmitS ne T m ret rd v := by
  intro K hK
  refine (h K fun a ha => hK a ((hS a).1 ha)).congrK (fun _ => Iff.rfl) fun a => ?_
  rw [hS a]

theorem WInv.app {w : WBuffer} (h : WInv w) (bs) : WInv (w.app bs) :=
  ⟨h.wf.app bs, fun a t ht => by have := h.tags a t ht; simp; omega⟩

theorem ClassRel.app {w : WBuffer} {r : RBuffer} (h : ClassRel w r) (bs n) :
    ClassRel (w.app bs) (r.adv n) := by
  intro cls t ht
  obtain ⟨k, h1, h2, h3⟩ := h cls t ht
  exact ⟨k, h1, by simp; omega, h3⟩

/-- A writer of fixed bytes and its reader. -/
theorem Emit.lift {α β} {ne K} {m : Wr α} {bs a} {ret : Nat → α} {rd : Rd β} {v}
    (hw : WritesNE m bs a) (hr : Reads rd bs v) (ha : a = ret bs.length) (hne : ne = true) :
    Emit ne K K m ret rd v := by
  intro w hinv hp hk
  refine ⟨bs, w.app bs, ?_, rfl, hinv.app bs, rfl, hk, ?_⟩
  · rw [← ha]; exact hw w hinv.wf (hp hne)
  · intro _ r hs hc _ _ hpre hcl
    exact ⟨_, hr r hs hc hpre, rfl, rfl, rfl, hs, hcl.app _ _⟩

theorem Emit.lift' {α β} {ne K} {m : Wr α} {bs a} {ret : Nat → α} {rd : Rd β} {v}
    (hw : Writes m bs a) (hr : Reads rd bs v) (ha : a = ret bs.length) :
    Emit ne K K m ret rd v := by
  intro w hinv hp hk
  refine ⟨bs, w.app bs, ?_, rfl, hinv.app bs, rfl, hk, ?_⟩
  · rw [← ha]; exact hw w hinv.wf
  · intro _ r hs hc _ _ hpre hcl
    exact ⟨_, hr r hs hc hpre, rfl, rfl, rfl, hs, hcl.app _ _⟩

theorem EmitS.lift {α β} {m : Wr α} {bs a} {ret : Nat → α} {rd : Rd β} {v}
    (hw : WritesNE m bs a) (hr : Reads rd bs v) (ha : a = ret bs.length) :
    EmitS true [] m ret rd v :=
  fun _ _ => (Emit.lift hw hr ha rfl).congrK (fun _ => Iff.rfl) (by simp)

theorem EmitS.lift' {α β} {ne} {m : Wr α} {bs a} {ret : Nat → α} {rd : Rd β} {v}
    (hw : Writes m bs a) (hr : Reads rd bs v) (ha : a = ret bs.length) :
    EmitS ne [] m ret rd v :=
  fun _ _ => (Emit.lift' hw hr ha).congrK (fun _ => Iff.rfl) (by simp)

theorem RBuffer.rest_adv_of {r r' : RBuffer} {n : Nat} (hp : r'.p = r.p) (hc : r'.c = r.c + n) :
    r'.rest = r.rest.drop n := by
  simp [RBuffer.rest, hp, hc]

/-- Sequencing. -/
theorem Emit.bind {α β γ} {ne K K1 K2} {m : Wr Unit} {f : Unit → Wr α} {ret : Nat → α}
    {rd : Rd β} {g : β → Rd γ} {v u} {c : α} (h1 : Emit ne K K1 m (fun _ => ()) rd v)
    (h2 : Emit ne K1 K2 (f ()) ret (g v) u) (hret : ∀ n, ret n = c) :
    Emit ne K K2 (m >>= f) ret (rd >>= g) u := by
  intro w hw hne hk
  obtain ⟨b1, w1, e1, p1, i1, o1, k1, r1⟩ := h1 w hw hne hk
  obtain ⟨b2, w2, e2, p2, i2, o2, k2, r2⟩ := h2 w1 i1 (fun h => by simp [p1, hne h]) k1
  refine ⟨b1 ++ b2, w2, ?_, by rw [p2, p1, List.append_assoc], i2, o2.trans o1, k2, ?_⟩
  · rw [Wr.bind_ok e1, e2, hret, hret]
  · intro hlt r hs hc hcw ho hpre hcl
    have hlen : w2.c = w1.c + b2.length := by
      rw [show w2.c = w2.p.length from i2.wf, show w1.c = w1.p.length from i1.wf, p2]; simp
    obtain ⟨r', q1, q2, q3, q4, q5, q6⟩ := r1 (by rw [o2] at hlt; omega) r hs hc hcw ho
      ((List.prefix_append b1 b2).trans hpre) hcl
    have hl := hpre.length_le
    simp only [RBuffer.rest, List.length_drop, List.length_append] at hl
    obtain ⟨r'', s1, s2, s3, s4, s5, s6⟩ := r2 hlt r' q5 (by rw [q2, q3]; omega)
      (by rw [q3, hcw, p1]; simp) (by rw [q4, ho, o1])
      (by
        rw [RBuffer.rest_adv_of q2 q3]
        obtain ⟨t, ht⟩ := hpre
        rw [← ht]; simp [List.append_assoc]) q6
    refine ⟨r'', ?_, s2.trans q2, by rw [s3, q3]; simp; omega, s4.trans q4, s5, s6⟩
    rw [Rd.bind_ok q1, s1]

theorem EmitS.bind {α β γ} {ne S1 S2} {m : Wr Unit} {f : Unit → Wr α} {ret : Nat → α}
    {rd : Rd β} {g : β → Rd γ} {v u} {c : α} (h1 : EmitS ne S1 m (fun _ => ()) rd v)
    (h2 : EmitS ne S2 (f ()) ret (g v) u) (hd : ∀ a ∈ S1, a ∉ S2) (hret : ∀ n, ret n = c) :
    EmitS ne (S1 ++ S2) (m >>= f) ret (rd >>= g) u := by
  intro K hK
  refine Emit.congrK (Emit.bind (h1 K fun a ha => hK a (by simp [ha]))
    (h2 _ fun a ha => ?_) hret) (fun _ => Iff.rfl) fun a => ?_
  · rintro (h | h)
    · exact hK a (by simp [ha]) h
    · exact hd a h ha
  · simp [or_assoc]

/-- Sequencing when the first step writes no object. -/
theorem EmitS.bind0 {α β γ} {ne S} {m : Wr Unit} {f : Unit → Wr α} {ret : Nat → α}
    {rd : Rd β} {g : β → Rd γ} {v u} {c : α} (h1 : EmitS ne [] m (fun _ => ()) rd v)
    (h2 : EmitS ne S (f ()) ret (g v) u) (hret : ∀ n, ret n = c) :
    EmitS ne S (m >>= f) ret (rd >>= g) u :=
  EmitS.bind h1 h2 (by simp) hret

/-- The reader goes on without reading. -/
theorem Emit.thenPure {α β γ} {ne K K'} {m : Wr α} {ret} {rd : Rd β} {g : β → Rd γ} {v u}
    (h : Emit ne K K' m ret rd v) (hg : g v = pure u) : Emit ne K K' m ret (rd >>= g) u := by
  intro w hw hne hk
  obtain ⟨b1, w1, e1, p1, i1, o1, k1, r1⟩ := h w hw hne hk
  refine ⟨b1, w1, e1, p1, i1, o1, k1, fun hlt r hs hc hcw ho hpre hcl => ?_⟩
  obtain ⟨r', q1, q⟩ := r1 hlt r hs hc hcw ho hpre hcl
  exact ⟨r', by rw [Rd.bind_ok q1, hg]; rfl, q⟩

theorem EmitS.thenPure {α β γ} {ne S} {m : Wr α} {ret} {rd : Rd β} {g : β → Rd γ} {v u}
    (h : EmitS ne S m ret rd v) (hg : g v = pure u) : EmitS ne S m ret (rd >>= g) u :=
  fun K hK => (h K hK).thenPure hg

theorem Emit.pure {α β} {ne K} {a : α} {ret : Nat → α} {v : β} (ha : a = ret 0) :
    Emit ne K K (pure a) ret (pure v) v :=
  Emit.lift' (Writes.pure a) (Reads.pure v) ha

theorem EmitS.pure {α β} {ne} {a : α} {ret : Nat → α} {v : β} (ha : a = ret 0) :
    EmitS ne [] (Pure.pure a) ret (Pure.pure v) v :=
  EmitS.lift' (Writes.pure a) (Reads.pure v) ha

/-- The returned count is ignored. -/
theorem Emit.drop {α β} {ne K K'} {m : Wr α} {ret} {rd : Rd β} {v}
    (h : Emit ne K K' m ret rd v) : Emit ne K K' (Wr.drop m) (fun _ => ()) rd v := by
  intro w hw hne hk
  obtain ⟨b1, w1, e1, q⟩ := h w hw hne hk
  exact ⟨b1, w1, by unfold Wr.drop; rw [Wr.bind_ok e1]; rfl, q⟩

theorem EmitS.drop {α β} {ne S} {m : Wr α} {ret} {rd : Rd β} {v}
    (h : EmitS ne S m ret rd v) : EmitS ne S (Wr.drop m) (fun _ => ()) rd v :=
  fun K hK => (h K hK).drop

theorem Emit.lenMinusOne {α β} {K K'} {f : Unit → Wr α} {ret} {rd : Rd β} {v}
    (h : Emit true K K' (f ()) ret rd v) :
    Emit true K K' (Wr.lenMinusOne >>= f) ret rd v := by
  intro w hw hne hk
  obtain ⟨b1, w1, e1, q⟩ := h w hw hne hk
  refine ⟨b1, w1, ?_, q⟩
  rw [Wr.bind_ok (WritesNE.lenMinusOne w hw.wf (hne rfl)), WBuffer.app_nil]
  exact e1

theorem EmitS.lenMinusOne {α β} {S} {f : Unit → Wr α} {ret} {rd : Rd β} {v}
    (h : EmitS true S (f ()) ret rd v) :
    EmitS true S (Wr.lenMinusOne >>= f) ret rd v := fun K hK => (h K hK).lenMinusOne

theorem Emit.counted {β} {ne K K'} {m : Wr Unit} {rd : Rd β} {v}
    (h : Emit ne K K' m (fun _ => ()) rd v) : Emit ne K K' (Wr.counted m) id rd v := by
  intro w hw hne hk
  obtain ⟨bs, w1, e1, p1, i1, o1, q⟩ := h w hw hne hk
  refine ⟨bs, w1, ?_, p1, i1, o1, q⟩
  unfold Wr.counted
  rw [Wr.bind_ok (a := w.c + w.offset) (w' := w) rfl, Wr.bind_ok e1,
    Wr.bind_ok (a := w1.c + w1.offset) (w' := w1) rfl, Wr.pure_eq]
  have : w1.c + w1.offset - (w.c + w.offset) = bs.length := by
    rw [show w1.c = w1.p.length from i1.wf, show w.c = w.p.length from hw.wf, p1, o1]; simp; omega
  rw [this]; rfl

theorem EmitS.counted {β} {ne S} {m : Wr Unit} {rd : Rd β} {v}
    (h : EmitS ne S m (fun _ => ()) rd v) : EmitS ne S (Wr.counted m) id rd v :=
  fun K hK => (h K hK).counted

/-- A framed record. -/
theorem Emit.framed {β} {ne K K'} {vers : Int} {body : Wr Unit} {f : Rd.RHeader → Rd β} {v}
    (hv : InI 2 vers) (h : ∀ hd : Rd.RHeader, hd.vers = vers →
      Emit true K K' body (fun _ => ()) (f hd) v) :
    Emit ne K K' (Wr.framed vers body) id (Rd.header >>= f) v := by
  intro w hw hne hk
  have hk1 : Knows (w.app (beBytes 4 0 ++ beBytes 2 (wrapI 2 vers))) K := hk
  have hi1 : WInv (w.app (beBytes 4 0 ++ beBytes 2 (wrapI 2 vers))) := hw.app _
  obtain ⟨bs0, w20, e20, p20, i20, o20, k20, _⟩ := h ⟨0, 0, vers⟩ rfl _ hi1
    (fun _ => by simp [beBytes]) hk1
  -- the writer's run does not depend on the header given to the reader
  have hp2 : w20.p = w.p ++ (beBytes 4 0 ++ beBytes 2 (wrapI 2 vers) ++ bs0) := by
    rw [p20]; simp
  have hset := Wr.setHeader_gen w.p w20 vers bs0 vers hp2 i20.wf
  refine ⟨hdrBytes bs0.length vers ++ bs0, { w20 with p := w.p ++ (hdrBytes bs0.length vers ++ bs0) },
    ?_, rfl, ⟨?_, ?_⟩, ?_, ?_, ?_⟩
  · unfold Wr.framed
    rw [Wr.bind_ok (Wr.header_eq vers w), Wr.bind_ok e20]
    rw [show w.c + w.offset = w.p.length + w20.offset by
      rw [show w.c = w.p.length from hw.wf, o20]; rfl]
    rw [hset]; simp
  · show w20.c = _
    rw [show w20.c = w20.p.length from i20.wf, hp2]; simp; omega
  · exact i20.tags
  · exact o20
  · exact k20
  · intro hlt r hs hc hcw ho hpre hcl
    have hlen : w20.c = w.p.length + (6 + bs0.length) := by
      rw [show w20.c = w20.p.length from i20.wf, hp2]; simp; omega
    have hlt' : w20.c + w20.offset < posLimit := hlt
    have hn : bs0.length + 2 < 2 ^ 30 := by simp [posLimit] at hlt'; omega
    have hh := Reads.hdr hn hv r hs hc (RBuffer.prefix_left hpre)
    obtain ⟨bs, w2, e2, p2, i2, o2, k2, r2⟩ := h ⟨r.c + r.offset, bs0.length + 2, vers⟩ rfl _ hi1
      (fun _ => by simp [beBytes]) hk1
    have hw2 : w2 = w20 := by
      rw [e20] at e2; injection e2 with e2; injection e2 with _ e2; exact e2.symm
    subst hw2
    have hbs : bs = bs0 := by
      rw [p20] at p2; exact (List.append_cancel_left p2).symm
    subst hbs
    have hl := hpre.length_le
    simp only [RBuffer.rest, List.length_drop, List.length_append, hdrBytes_length] at hl
    obtain ⟨r', q1, q2, q3, q4, q5, q6⟩ := r2 hlt' (r.adv 6) hs (by simp; omega)
      (by simp [hcw]) (by simp [ho]) (by
        have := RBuffer.prefix_adv hpre
        simpa using this)
      (hcl.app _ _)
    refine ⟨r', ?_, q2, by rw [q3]; simp; omega, q4, q5, q6⟩
    rw [Rd.bind_ok hh, q1]

theorem EmitS.framed {β} {ne S} {vers : Int} {body : Wr Unit} {f : Rd.RHeader → Rd β} {v}
    (hv : InI 2 vers) (h : ∀ hd : Rd.RHeader, hd.vers = vers →
      EmitS true S body (fun _ => ()) (f hd) v) :
    EmitS ne S (Wr.framed vers body) id (Rd.header >>= f) v :=
  fun K hK => Emit.framed hv fun hd hh => h hd hh K hK

/-! ### Objects written by class tag -/

theorem Wr.inPlace_gen (p0 old new rest : List Byte) (w : WBuffer)
    (hp : w.p = p0 ++ (old ++ rest)) (hl : old.length = new.length) :
    Wr.inPlace new (p0.length + w.offset) w = .ok ((), { w with p := p0 ++ (new ++ rest) }) := by
  unfold Wr.inPlace
  have h1 : ¬ (p0.length + w.offset < w.offset) := by omega
  have h2 : p0.length + w.offset - w.offset = p0.length := by omega
  simp only [h1, h2, if_false, hp]
  rw [if_pos (by simp; omega)]
  congr 3
  rw [← hl]
  simp [List.drop_append, List.drop_of_length_le]

theorem or_classMask {n : Nat} (h : n < 2 ^ 31) : n ||| kClassMask = 2 ^ 31 + n := by
  have h1 : kClassMask = 2 ^ 31 * 1 := rfl
  rw [Nat.or_comm, h1, ← Nat.two_pow_add_eq_or_of_lt h]

theorem add_or_classMask {n : Nat} (h : n < 2 ^ 31) : (2 ^ 31 + n) ||| kClassMask = 2 ^ 31 + n := by
  rw [← or_classMask h, Nat.or_assoc, Nat.or_self]

theorem and_classMask_lt {n : Nat} (h : n < 2 ^ 31) : n &&& kClassMask = 0 := by
  have h0 := and_two_pow_ne_zero n 31
  rw [Nat.testBit_lt_two_pow h] at h0
  exact Decidable.not_not.1 fun hne => by simpa using h0.1 hne

theorem and_classMask_add {n : Nat} (h : n < 2 ^ 31) : (2 ^ 31 + n) &&& kClassMask ≠ 0 := by
  show (2 ^ 31 + n) &&& 2 ^ 31 ≠ 0
  rw [and_two_pow_ne_zero, Nat.testBit_two_pow_add_eq, Nat.testBit_lt_two_pow h]
  rfl

/-- Class names that the reader can read back: no NUL, valid UTF-8, at most 80 bytes. -/
def ClassNameOk (s : Str) : Prop := (0 : Byte) ∉ s ∧ utf8 s = true ∧ s.length ≤ 80

instance decClassNameOk (s : Str) : Decidable (ClassNameOk s) := inferInstanceAs (Decidable (_ ∧ _))

/-- Reading the byte count that starts an object. -/
theorem Rd.objectAny_count {ο} (build : Str → Option (Rd ο)) {n : Nat} (hn : n < 2 ^ 30)
    {r : RBuffer} (hc : r.c ≤ r.p.length)
    (hp : beBytes 4 (n ||| kByteCountMask) <+: r.rest) :
    Rd.objectAny build r = (do let tag ← Rd.u32; Rd.anyTag build true (r.c + 4 + r.offset) tag)
      (r.adv 4) := by
  unfold Rd.objectAny
  have h1 : Rd.u32 r = .ok (2 ^ 30 + n, r.adv 4) := by
    have := Rd.uint_ok (k := 4) (by simp) hc hp
    rw [Rd.u32, this, or_byteCountMask hn, beNat_beBytes_of_lt (by omega)]
  rw [Rd.bind_ok h1, if_neg]
  · rfl
  · rintro (h | h)
    · exact and_byteCountMask_add hn |>.symm ▸ (by decide : ¬ (2 ^ 30 = 0)) <| h
    · simp [kNewClassTag] at h; omega

theorem Wr.objectAny_run {o : WObj} {w : WBuffer} (hw : WInv w) (hne : w.p ≠ []) {body : List Byte}
    {w2 : WBuffer}
    (h : Wr.writeClass (w.c + w.offset) o (w.app (beBytes 4 0)) =
      .ok (body.length ||| kByteCountMask, w2))
    (hp : w2.p = w.p ++ (beBytes 4 0 ++ body)) (hi : WInv w2) (ho : w2.offset = w.offset) :
    Wr.objectAny o w = .ok (4 + body.length,
      { w2 with p := w.p ++ (beBytes 4 (body.length ||| kByteCountMask) ++ body) }) := by
  unfold Wr.objectAny
  have hc : w.c = w.p.length := hw.wf
  rw [Wr.bind_ok (a := w.c + w.offset) (w' := w) rfl,
    Wr.bind_ok (WritesNE.lenMinusOne w hw.wf hne), WBuffer.app_nil]
  have h0 : Wr.i32 0 w = .ok ((), w.app (beBytes 4 0)) := rfl
  rw [Wr.bind_ok h0, Wr.bind_ok h]
  have := Wr.inPlace_gen w.p (beBytes 4 0) (beBytes 4 (body.length ||| kByteCountMask)) body w2 hp
    (by simp)
  rw [ho] at this
  rw [hc, Wr.bind_ok this]
  rw [Wr.bind_ok (a := w2.c + w.offset)
    (w' := { w2 with p := w.p ++ (beBytes 4 (body.length ||| kByteCountMask) ++ body) })
    (by simp [Wr.pos, ho])]
  rw [Wr.pure_eq]
  have : w2.c + w.offset - (w.p.length + w.offset) = 4 + body.length := by
    rw [show w2.c = w2.p.length from hi.wf, hp]; simp; omega
  rw [this]

/-- An object whose address is already in the table: the reader gets nothing. -/
theorem Emit.objectAny_known {ο} {K : Nat → Prop} {o : WObj} (hK : K o.addr)
    (build : Str → Option (Rd ο)) :
    Emit true K K (Wr.objectAny o) id (Rd.objectAny build) none := by
  intro w hw hne hk
  obtain ⟨t, ht⟩ := Option.isSome_iff_exists.1 ((hk o.addr).2 hK)
  have htag := hw.tags _ _ ht
  have hcls : Wr.writeClass (w.c + w.offset) o (w.app (beBytes 4 0)) =
      .ok ((beBytes 4 t).length ||| kByteCountMask, (w.app (beBytes 4 0)).app (beBytes 4 t)) := by
    unfold Wr.writeClass
    rw [Wr.bind_ok (WritesNE.lenMinusOne _ (hw.wf.app _) (by simp [beBytes])), WBuffer.app_nil]
    rw [Wr.bind_ok (a := w.c + 4 + w.offset) (w' := w.app (beBytes 4 0)) (by simp [Wr.pos])]
    rw [Wr.bind_ok (a := some t) (w' := w.app (beBytes 4 0)) (by simp [Wr.refP, ht])]
    simp only []
    rw [Wr.bind_ok (a := ()) (w' := (w.app (beBytes 4 0)).app (beBytes 4 t)) rfl]
    rw [Wr.bind_ok (a := w.c + 4 + 4 + w.offset) (w' := (w.app (beBytes 4 0)).app (beBytes 4 t))
      (by simp [Wr.pos])]
    rw [Wr.pure_eq]
    congr 3
    simp; omega
  have hrun := Wr.objectAny_run hw (hne rfl) hcls (by simp) (hw.app _ |>.app _) rfl
  refine ⟨beBytes 4 ((beBytes 4 t).length ||| kByteCountMask) ++ beBytes 4 t,
    { w with c := w.c + 4 + 4,
             p := w.p ++ (beBytes 4 ((beBytes 4 t).length ||| kByteCountMask) ++ beBytes 4 t) }, ?_, rfl, ?_, rfl,
    ?_, ?_⟩
  · rw [hrun]; simp
  · have := (hw.app (beBytes 4 0)).app (beBytes 4 t)
    refine ⟨?_, this.tags⟩
    have h2 := this.wf
    simp only [WBuffer.WF, WBuffer.app_c, WBuffer.app_p, beBytes_length, List.length_append] at h2 ⊢
    omega
  · exact hk
  · intro hlt r hs hc hcw ho hpre hcl
    have hlt' : w.c + 4 + 4 + w.offset < 2 ^ 30 := by simpa [posLimit] using hlt
    refine ⟨(r.adv 4).adv 4, ?_, rfl, by simp, rfl, hs, ?_⟩
    · have hp1 := RBuffer.prefix_left hpre
      have hp2 := RBuffer.prefix_adv hpre
      have hc2 := RBuffer.adv_le hc hp1
      simp only [beBytes_length] at hp1 hp2 hc2
      rw [Rd.objectAny_count build (by decide) hc hp1]
      have hu : Rd.u32 (r.adv 4) = .ok (t, (r.adv 4).adv 4) := by
        rw [Rd.u32, Rd.uint_ok (k := 4) (by simp) hc2 hp2, beNat_beBytes_of_lt (by omega)]
      rw [Rd.bind_ok hu]
      unfold Rd.anyTag
      rw [if_pos (and_classMask_lt (by omega)), if_neg (by simp [kNullTag]; omega),
        if_neg (by omega)]
      rfl
    · intro cls tt htt
      obtain ⟨k, a1, a2, a3⟩ := hcl cls tt htt
      exact ⟨k, a1, by simp; omega, a3⟩

theorem lookup_cons_isSome {α β} [BEq α] [LawfulBEq α] [DecidableEq α] (l : List (α × β)) (a b : α)
    (v : β) :
    (List.lookup a ((b, v) :: l)).isSome = true ↔ (l.lookup a).isSome = true ∨ a = b := by
  by_cases h : a = b
  · subst h; simp [List.lookup]
  · simp [List.lookup, beq_false_of_ne h, h]

/-- An object not written before. -/
theorem EmitS.objectAny {ο} {S : List Nat} {o : WObj} {build : Str → Option (Rd ο)} {rd : Rd ο}
    {v : ο} {ret : Nat → Nat} (hm : EmitS true S o.marshal ret rd v) (ha : o.addr ∉ S)
    (hb : build o.cls = some rd) (hcls : ClassNameOk o.cls) :
    EmitS true (o.addr :: S) (Wr.objectAny o) id (Rd.objectAny build) (some v) := by
  intro K hK w hw hne hk
  have hnone : w.refsP.lookup o.addr = none := by
    cases hl : w.refsP.lookup o.addr with
    | none => rfl
    | some t => exact absurd ((hk o.addr).1 (by simp [hl])) (hK o.addr (by simp))
  have hKS : ∀ a ∈ S, ¬ K a := fun a ha => hK a (by simp [ha])
  have hwc : w.c = w.p.length := hw.wf
  cases hs : w.refsS.lookup o.cls with
  | some t =>
    -- the class is known: tag, then the object, then the table of objects
    have hi1 : WInv ((w.app (beBytes 4 0)).app (beBytes 4 (t ||| kClassMask))) := (hw.app _).app _
    have hk1 : Knows ((w.app (beBytes 4 0)).app (beBytes 4 (t ||| kClassMask))) K := hk
    obtain ⟨bs, w2, e2, p2, i2, o2, k2, r2⟩ := hm K hKS _ hi1 (fun _ => by simp [beBytes]) hk1
    have hlen2 : w2.c = w.p.length + (8 + bs.length) := by
      rw [show w2.c = w2.p.length from i2.wf, p2]; simp; omega
    let w3 : WBuffer := { w2 with refsP := (o.addr, w.c + w.offset + kMapOffset) :: w2.refsP }
    have hi3 : WInv w3 := by
      refine ⟨i2.wf, fun a tt htt => ?_⟩
      by_cases h : a = o.addr
      · subst h
        simp only [w3, List.lookup, beq_self_eq_true, Option.some.injEq] at htt
        subst htt
        show 2 ≤ w.c + w.offset + 2 ∧ w.c + w.offset + 2 < w2.c + w2.offset
        rw [o2]; simp; omega
      · simp only [w3, List.lookup, beq_false_of_ne h] at htt
        exact i2.tags a tt htt
    have hcl : Wr.writeClass (w.c + w.offset) o (w.app (beBytes 4 0)) =
        .ok ((beBytes 4 (t ||| kClassMask) ++ bs).length ||| kByteCountMask, w3) := by
      unfold Wr.writeClass
      rw [Wr.bind_ok (WritesNE.lenMinusOne _ (hw.wf.app _) (by simp [beBytes])), WBuffer.app_nil]
      rw [Wr.bind_ok (a := w.c + 4 + w.offset) (w' := w.app (beBytes 4 0)) (by simp [Wr.pos])]
      rw [Wr.bind_ok (a := none) (w' := w.app (beBytes 4 0)) (by simp [Wr.refP, hnone])]
      simp only []
      rw [Wr.bind_ok (a := some t) (w' := w.app (beBytes 4 0)) (by simp [Wr.refS, hs])]
      simp only []
      rw [Wr.bind_ok (a := ()) (w' := (w.app (beBytes 4 0)).app (beBytes 4 (t ||| kClassMask))) rfl]
      rw [Wr.bind_ok (a := ()) (w' := w2) (by unfold Wr.drop; rw [Wr.bind_ok e2]; rfl)]
      rw [Wr.bind_ok (a := ()) (w' := w3) rfl]
      rw [Wr.bind_ok (a := w2.c + w2.offset) (w' := w3) rfl, Wr.pure_eq]
      congr 3
      rw [o2]; simp; omega
    have hp3 : w3.p = w.p ++ (beBytes 4 0 ++ (beBytes 4 (t ||| kClassMask) ++ bs)) := by
      show w2.p = _
      rw [p2]; simp
    have hrun := Wr.objectAny_run hw (hne rfl) hcl hp3 hi3 o2
    refine ⟨beBytes 4 ((beBytes 4 (t ||| kClassMask) ++ bs).length ||| kByteCountMask) ++
      (beBytes 4 (t ||| kClassMask) ++ bs),
      { w3 with p := w.p ++ (beBytes 4 ((beBytes 4 (t ||| kClassMask) ++ bs).length |||
        kByteCountMask) ++ (beBytes 4 (t ||| kClassMask) ++ bs)) }, ?_, rfl, ⟨?_, hi3.tags⟩, o2, ?_, ?_⟩
    · rw [hrun]; simp
    · show w2.c = _
      rw [hlen2]; simp; omega
    · intro a
      show (List.lookup a ((o.addr, w.c + w.offset + kMapOffset) :: w2.refsP)).isSome = true ↔ _
      rw [lookup_cons_isSome, k2 a]
      simp only [List.mem_cons]
      constructor
      · rintro ((h | h) | h) <;> simp [h]
      · rintro (h | h | h) <;> simp [h]
    · intro hlt r hsk hc hcw ho hpre hcr
      have hlt' : w2.c + w.offset < 2 ^ 30 := by
        have : w2.c + w2.offset < posLimit := hlt
        rw [o2] at this; exact this
      have hp1 := RBuffer.prefix_left hpre
      have hp2 := RBuffer.prefix_adv hpre
      have hc2 := RBuffer.adv_le hc hp1
      simp only [beBytes_length] at hp1 hp2 hc2
      have hp3 := RBuffer.prefix_left hp2
      have hp4 := RBuffer.prefix_adv hp2
      have hc3 := RBuffer.adv_le hc2 hp3
      simp only [beBytes_length] at hp3 hp4 hc3
      obtain ⟨k, hkt, hkl, hkr⟩ := hcr _ _ hs
      have hk31 : k < 2 ^ 30 := by omega
      have htt : t ||| kClassMask = 2 ^ 31 + k := by rw [hkt, add_or_classMask (by omega)]
      have hu : Rd.u32 (r.adv 4) = .ok (2 ^ 31 + k, (r.adv 4).adv 4) := by
        rw [Rd.u32, Rd.uint_ok (k := 4) (by simp) hc2 hp3, htt, beNat_beBytes_of_lt (by omega)]
      obtain ⟨r', q1, q2, q3, q4, q5, q6⟩ := r2 (by rw [o2]; exact hlt') ((r.adv 4).adv 4) hsk
        (by simpa using hc3) (by simp [hcw]) (by simp [ho]) hp4 ((hcr.app _ _).app _ _)
      refine ⟨r', ?_, q2, by rw [q3]; simp; omega, q4, q5, q6⟩
      rw [Rd.objectAny_count build (by simp; omega) hc hp1, Rd.bind_ok hu]
      unfold Rd.anyTag
      rw [if_neg (and_classMask_add (by omega)), if_neg (by simp [kNewClassTag]; omega)]
      have hsub : 2 ^ 31 + k - kClassMask = k := by simp [kClassMask]
      rw [hsub, Rd.bind_ok (a := some o.cls) (r' := (r.adv 4).adv 4) (by simp [Rd.ref, hkr])]
      simp only [hb]
      rw [Rd.bind_ok q1]
      rfl
  | none =>
    -- a new class: tag, name, both tables, then the object
    let w1 : WBuffer := ((w.app (beBytes 4 0)).app (beBytes 4 kNewClassTag)).app (o.cls ++ [0])
    let ctag : Nat := (w.c + 4 + w.offset + kMapOffset) ||| kClassMask
    let w1' : WBuffer :=
      { w1 with refsS := (o.cls, ctag) :: w1.refsS,
                refsP := (o.addr, w.c + w.offset + kMapOffset) :: w1.refsP }
    have hi1 : WInv w1' := by
      refine ⟨((hw.app _).app _ |>.app _).wf, fun a tt htt => ?_⟩
      by_cases h : a = o.addr
      · subst h
        simp only [w1', List.lookup, beq_self_eq_true, Option.some.injEq] at htt
        subst htt
        show 2 ≤ w.c + w.offset + 2 ∧ w.c + w.offset + 2 < w1.c + w1.offset
        simp [w1]; omega
      · simp only [w1', List.lookup, beq_false_of_ne h] at htt
        exact ((hw.app _).app _ |>.app _).tags a tt htt
    have hk1 : Knows w1' (fun a => K a ∨ a = o.addr) := by
      intro a
      show (List.lookup a ((o.addr, w.c + w.offset + kMapOffset) :: w.refsP)).isSome = true ↔ _
      rw [lookup_cons_isSome, hk a]
    obtain ⟨bs, w2, e2, p2, i2, o2, k2, r2⟩ := hm _ (by
        rintro a haS (h | h)
        · exact hKS a haS h
        · exact ha (h ▸ haS)) w1' hi1 (fun _ => by simp [w1', w1, beBytes]) hk1
    have hlen2 : w2.c = w.p.length + (8 + (o.cls.length + 1) + bs.length) := by
      rw [show w2.c = w2.p.length from i2.wf, p2]; simp [w1', w1]; omega
    have o2' : w2.offset = w.offset := o2
    have hcl : Wr.writeClass (w.c + w.offset) o (w.app (beBytes 4 0)) =
        .ok ((beBytes 4 kNewClassTag ++ (o.cls ++ [0]) ++ bs).length ||| kByteCountMask, w2) := by
      unfold Wr.writeClass
      rw [Wr.bind_ok (WritesNE.lenMinusOne _ (hw.wf.app _) (by simp [beBytes])), WBuffer.app_nil]
      rw [Wr.bind_ok (a := w.c + 4 + w.offset) (w' := w.app (beBytes 4 0)) (by simp [Wr.pos])]
      rw [Wr.bind_ok (a := none) (w' := w.app (beBytes 4 0)) (by simp [Wr.refP, hnone])]
      simp only []
      rw [Wr.bind_ok (a := none) (w' := w.app (beBytes 4 0)) (by simp [Wr.refS, hs])]
      simp only []
      rw [Wr.bind_ok (a := ()) (w' := (w.app (beBytes 4 0)).app (beBytes 4 kNewClassTag)) rfl]
      rw [Wr.bind_ok (Writes.cstring o.cls _ ((hw.app _).app _).wf)]
      rw [Wr.bind_ok (a := ()) (w' := { w1 with refsS := (o.cls, ctag) :: w1.refsS }) rfl]
      rw [Wr.bind_ok (a := ()) (w' := w1') rfl]
      rw [Wr.bind_ok (a := ()) (w' := w2) (by unfold Wr.drop; rw [Wr.bind_ok e2]; rfl)]
      rw [Wr.bind_ok (a := w2.c + w2.offset) (w' := w2) rfl, Wr.pure_eq]
      congr 3
      rw [o2']; simp; omega
    have hp3 : w2.p = w.p ++ (beBytes 4 0 ++ (beBytes 4 kNewClassTag ++ (o.cls ++ [0]) ++ bs)) := by
      rw [p2]; simp [w1', w1]
    have hrun := Wr.objectAny_run hw (hne rfl) hcl hp3 i2 o2'
    refine ⟨beBytes 4 ((beBytes 4 kNewClassTag ++ (o.cls ++ [0]) ++ bs).length ||| kByteCountMask) ++
      (beBytes 4 kNewClassTag ++ (o.cls ++ [0]) ++ bs),
      { w2 with p := w.p ++ (beBytes 4 ((beBytes 4 kNewClassTag ++ (o.cls ++ [0]) ++ bs).length |||
        kByteCountMask) ++ (beBytes 4 kNewClassTag ++ (o.cls ++ [0]) ++ bs)) }, ?_, rfl, ⟨?_, i2.tags⟩, o2', ?_, ?_⟩
    · rw [hrun]; simp
    · show w2.c = _
      rw [hlen2]; simp; omega
    · intro a
      show (w2.refsP.lookup a).isSome = true ↔ _
      rw [k2 a]
      simp only [List.mem_cons, or_assoc]
    · intro hlt r hsk hc hcw ho hpre hcr
      have hlt' : w2.c + w.offset < 2 ^ 30 := by
        have : w2.c + w2.offset < posLimit := hlt
        rw [o2'] at this; exact this
      have hp1 := RBuffer.prefix_left hpre
      have hp2 := RBuffer.prefix_adv hpre
      have hc2 := RBuffer.adv_le hc hp1
      simp only [beBytes_length, List.append_assoc] at hp1 hp2 hc2
      have hp3 := RBuffer.prefix_left hp2
      have hp4 := RBuffer.prefix_adv hp2
      have hc3 := RBuffer.adv_le hc2 hp3
      simp only [beBytes_length] at hp3 hp4 hc3
      rw [← List.append_assoc] at hp4
      have hp5 := RBuffer.prefix_left hp4
      have hp6 := RBuffer.prefix_adv hp4
      have hc4 := RBuffer.adv_le hc3 hp5
      have hu : Rd.u32 (r.adv 4) = .ok (kNewClassTag, (r.adv 4).adv 4) := by
        rw [Rd.u32, Rd.uint_ok (k := 4) (by simp) hc2 hp3]; rfl
      have hcs := Reads.cstring 80 hcls.1 hcls.2.1 hcls.2.2 ((r.adv 4).adv 4) hsk hc3 hp5
      let r4 : RBuffer := ((r.adv 4).adv 4).adv (o.cls ++ [0]).length
      let r5 : RBuffer := { r4 with refs := (r.c + 4 + r.offset + kMapOffset, o.cls) :: r4.refs }
      have hcr5 : ClassRel w1' r5 := by
        intro cls tt htt
        by_cases h : cls = o.cls
        · subst h
          simp only [w1', List.lookup, beq_self_eq_true, Option.some.injEq] at htt
          refine ⟨w.c + 4 + w.offset + kMapOffset, ?_, ?_, ?_⟩
          · rw [← htt]
            exact or_classMask (by simp [kMapOffset]; omega)
          · simp [w1', w1, kMapOffset]; omega
          · simp only [r5]
            rw [show r.c + 4 + r.offset + kMapOffset = w.c + 4 + w.offset + kMapOffset by
              rw [hcw, hwc, ho]]
            simp [List.lookup]
        · simp only [w1', List.lookup, beq_false_of_ne h] at htt
          obtain ⟨k, a1, a2, a3⟩ := hcr cls tt htt
          refine ⟨k, a1, by simp [w1', w1]; omega, ?_⟩
          simp only [r5]
          have hkne : k ≠ r.c + 4 + r.offset + kMapOffset := by
            rw [hcw, ← hwc, ho]; omega
          simp only [List.lookup, beq_false_of_ne hkne]
          exact a3
      obtain ⟨r', q1, q2, q3, q4, q5, q6⟩ := r2 (by rw [o2']; exact hlt') r5 hsk hc4
        (by simp [r5, r4, hcw, w1', w1]) (by simp [r5, r4, ho, w1', w1]) hp6 hcr5
      refine ⟨r', ?_, q2, by rw [q3]; simp [r5, r4]; omega, q4, q5, q6⟩
      rw [Rd.objectAny_count build (by simp; omega) hc hp1, Rd.bind_ok hu]
      unfold Rd.anyTag
      rw [if_neg (by decide), if_pos rfl, Rd.bind_ok hcs]
      simp only [hb, if_true]
      rw [Rd.bind_ok (a := ()) (r' := r5) rfl, Rd.bind_ok q1]
      rfl

end Verif
