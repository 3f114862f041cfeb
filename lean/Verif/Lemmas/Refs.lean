import Verif.Spec.Refs
import Verif.Lemmas.Containers
import Verif.Lemmas.RoundTrip
namespace Verif

theorem WInv.holding (off : Nat) (pre : List Byte) : WInv (WBuffer.holding off pre) :=
  ⟨rfl, fun a t h => by simp [WBuffer.holding] at h⟩

theorem Emit.roundTripAt {α} {ne : Bool} {K' : Nat → Prop} {wr : Wr Nat} {rd : Rd α} {v : α}
    (h : Emit ne (fun _ => False) K' wr id rd v) {off : Nat} {pre : List Byte}
    (hne : ne = true → pre ≠ []) : RoundTripAt off pre wr rd v := by
  obtain ⟨bs, w', e, p, i, o, _, r⟩ := h (WBuffer.holding off pre) (WInv.holding _ _) hne
    (fun a => by simp [WBuffer.holding])
  refine ⟨bs, w', e, p, i.wf, fun hlt post => ?_⟩
  obtain ⟨r', q1, q2, q3, q4, q5, q6⟩ := r (by
      rw [show w'.c = w'.p.length from i.wf, p, o]
      show _ + off < 2 ^ 30
      simp only [WBuffer.holding] at *; omega)
    (RBuffer.over off (pre ++ bs ++ post) pre.length) rfl
    (by simp [RBuffer.over]) rfl rfl (by simp [RBuffer.over, RBuffer.rest, List.append_assoc])
    (fun cls t ht => by simp [WBuffer.holding] at ht)
  exact ⟨r', q1, by rw [q3]; simp [RBuffer.over], q2⟩

theorem EmitS.roundTripAt {α} {ne : Bool} {S : List Nat} {wr : Wr Nat} {rd : Rd α} {v : α}
    (h : EmitS ne S wr id rd v) {off : Nat} {pre : List Byte}
    (hne : ne = true → pre ≠ []) : RoundTripAt off pre wr rd v :=
  (h (fun _ => False) (by simp)).roundTripAt hne

theorem RoundTripNE.emit {α} {wr : Wr Nat} {rd : Rd α} {v : α} (h : RoundTripNE wr rd v) :
    EmitS true [] wr id rd v := by
  obtain ⟨bs, hw, hr⟩ := h
  refine EmitS.lift (a := bs.length) (bs := bs) (fun w hwf hne => ?_) hr.reads rfl
  obtain ⟨w', e, ha⟩ := hw w hwf hne
  rw [e, ha]; rfl

theorem Item.Readable.emit {ο} {factory : Str → Option (Rd ο)} {x : Item ο}
    (h : x.Readable factory) :
    EmitS true [x.addr] (Wr.objectAny x.obj) id (Rd.objectAny factory) (some x.value) :=
  EmitS.objectAny (o := x.obj) h.record.emit (by simp) h.registered ⟨h.noNul, h.text, h.short⟩

/-- What reading a sequence gives when the addresses in `seen` were written before. -/
def readValues {ο} : List Nat → List (Item ο) → List (Option ο)
  | _, [] => []
  | seen, x :: xs =>
    (if x.addr ∈ seen then none else some x.value) :: readValues (x.addr :: seen) xs

/-- The same sequence of steps, as entries of a list. -/
theorem Emit.listItems {ο} {factory : Str → Option (Rd ο)} (xs : List (Item ο)) :
    ∀ seen : List Nat, (∀ x ∈ xs, x.Readable factory) →
    Emit true (fun a => a ∈ seen) (fun a => a ∈ seen ∨ a ∈ xs.map Item.addr)
      (Wr.each (fun o => do Wr.drop (Wr.objectAny o); Wr.string []) (xs.map Item.obj)) (fun _ => ())
      (Rd.times (xs.map Item.obj).length (Verif.lenientEntry (Rd.objectAny factory)))
      (readValues seen xs) := by
  induction xs with
  | nil => exact fun seen _ => Emit.congrK (Emit.pure rfl) (fun _ => Iff.rfl) (by simp)
  | cons x xs ih =>
    intro seen h
    have hx := (h x (by simp))
    have ih' := ih (x.addr :: seen) fun y hy => h y (by simp [hy])
    simp only [Wr.each, List.map_cons, List.length_cons, Rd.times, readValues]
    refine Emit.congrK (Emit.bind (c := ()) (K1 := fun a => a ∈ x.addr :: seen) ?_
      (Emit.last ih') fun _ => rfl) (fun _ => Iff.rfl) fun a => ?_
    · refine Emit.lenientEntry ?_
      by_cases hs : x.addr ∈ seen
      · rw [if_pos hs]
        refine Emit.congrK (Emit.objectAny_known (o := x.obj) (K := fun a => a ∈ seen) hs factory)
          (fun _ => Iff.rfl) fun a => ?_
        simp only [List.mem_cons]
        exact ⟨Or.inr, fun h => h.elim (fun e => e ▸ hs) id⟩
      · rw [if_neg hs]
        refine Emit.congrK (hx.emit (fun a => a ∈ seen) (by simpa using hs))
          (fun _ => Iff.rfl) fun a => ?_
        simp only [List.mem_cons, List.not_mem_nil, or_false]
        exact Or.comm
    · simp only [List.mem_cons]
      constructor
      · rintro ((h | h) | h) <;> simp [h]
      · rintro (h | h | h) <;> simp [h]

theorem none_mem_readValues {ο} (xs : List (Item ο)) (seen : List Nat)
    (h : (∃ a ∈ seen, a ∈ xs.map Item.addr) ∨ ¬ (xs.map Item.addr).Nodup) :
    none ∈ readValues seen xs := by
  induction xs generalizing seen with
  | nil => simp at h
  | cons x xs ih =>
    simp only [readValues, List.mem_cons]
    by_cases hs : x.addr ∈ seen
    · left; rw [if_pos hs]
    · right
      refine ih _ ?_
      rcases h with ⟨a, ha, hm⟩ | h
      · left
        rw [List.map_cons, List.mem_cons] at hm
        rcases hm with rfl | hm
        · exact absurd ha hs
        · exact ⟨a, by simp [ha], hm⟩
      · rw [List.map_cons, List.nodup_cons, Classical.not_and_iff_not_or_not,
          Classical.not_not] at h
        rcases h with h | h
        · exact Or.inl ⟨x.addr, by simp, h⟩
        · exact Or.inr h

theorem Emit.items {ο} {factory : Str → Option (Rd ο)} (xs : List (Item ο)) :
    ∀ seen : List Nat, (∀ x ∈ xs, x.Readable factory) →
    Emit true (fun a => a ∈ seen) (fun a => a ∈ seen ∨ a ∈ xs.map Item.addr)
      (Wr.each (fun x => Wr.drop (Wr.objectAny x.obj)) xs) (fun _ => ())
      (Rd.times xs.length (Rd.objectAny factory)) (readValues seen xs) := by
  induction xs with
  | nil => exact fun seen _ => Emit.congrK (Emit.pure rfl) (fun _ => Iff.rfl) (by simp)
  | cons x xs ih =>
    intro seen h
    have hx := (h x (by simp))
    have ih' := ih (x.addr :: seen) fun y hy => h y (by simp [hy])
    simp only [Wr.each, List.length_cons, Rd.times, readValues]
    refine Emit.congrK (Emit.bind (c := ()) (K1 := fun a => a ∈ x.addr :: seen) ?_
      (Emit.last ih') fun _ => rfl) (fun _ => Iff.rfl) fun a => ?_
    · by_cases hs : x.addr ∈ seen
      · rw [if_pos hs]
        refine Emit.congrK (Emit.objectAny_known (o := x.obj) (K := fun a => a ∈ seen) hs factory).drop
          (fun _ => Iff.rfl) fun a => ?_
        simp only [List.mem_cons]
        exact ⟨Or.inr, fun h => h.elim (fun e => e ▸ hs) id⟩
      · rw [if_neg hs]
        refine Emit.congrK (hx.emit (fun a => a ∈ seen) (by simpa using hs)).drop
          (fun _ => Iff.rfl) fun a => ?_
        simp only [List.mem_cons, List.not_mem_nil, or_false]
        exact Or.comm
    · simp only [List.mem_cons, List.map_cons]
      constructor
      · rintro ((h | h) | h) <;> simp [h]
      · rintro (h | h | h) <;> simp [h]

theorem readValues_length {ο} (xs : List (Item ο)) (seen) :
    (readValues seen xs).length = xs.length := by
  induction xs generalizing seen with
  | nil => rfl
  | cons x xs ih => simp [readValues, ih]

theorem readValues_get {ο} (xs : List (Item ο)) (seen : List Nat) (i : Nat) (x : Item ο)
    (hx : xs[i]? = some x) :
    (x.addr ∈ seen ∨ (∃ j y, j < i ∧ xs[j]? = some y ∧ y.addr = x.addr) →
      (readValues seen xs)[i]? = some none) ∧
    (x.addr ∉ seen → (∀ j y, j < i → xs[j]? = some y → y.addr ≠ x.addr) →
      (readValues seen xs)[i]? = some (some x.value)) := by
  induction xs generalizing seen i with
  | nil => simp at hx
  | cons z zs ih =>
    cases i with
    | zero =>
      simp only [List.getElem?_cons_zero, Option.some.injEq] at hx
      subst hx
      refine ⟨fun h => ?_, fun h _ => ?_⟩
      · have : z.addr ∈ seen := h.elim id fun ⟨j, y, hj, _⟩ => absurd hj (by omega)
        simp [readValues, this]
      · simp [readValues, h]
    | succ i =>
      simp only [List.getElem?_cons_succ] at hx
      have := ih (z.addr :: seen) i hx
      simp only [readValues, List.getElem?_cons_succ]
      refine ⟨fun h => this.1 ?_, fun h hn => this.2 ?_ ?_⟩
      · rcases h with h | ⟨j, y, hj, hy, e⟩
        · exact Or.inl (by simp [h])
        · cases j with
          | zero =>
            simp only [List.getElem?_cons_zero, Option.some.injEq] at hy
            subst hy
            exact Or.inl (by simp [e])
          | succ j => exact Or.inr ⟨j, y, by omega, by simpa using hy, e⟩
      · have := hn 0 z (by omega) rfl
        simp only [List.mem_cons, not_or]
        exact ⟨fun e => this e.symm, h⟩
      · exact fun j y hj hy => hn (j + 1) y (by omega) (by simpa using hy)

theorem objectAny_unregistered {ο} {factory : Str → Option (Rd ο)} {cls : Str}
    (h0 : (0 : Byte) ∉ cls) (hu : utf8 cls = true) (hl : cls.length ≤ 80)
    (hf : factory cls = none) {n : Nat} (hn : n < 2 ^ 30) {r : RBuffer} (hc : r.c ≤ r.p.length)
    (hs : r.skip = none)
    (hpre : beBytes 4 (2 ^ 30 + n) ++ (beBytes 4 (2 ^ 32 - 1) ++ (cls ++ [0])) <+: r.rest) :
    Rd.objectAny factory r = .error (.err .classNotRegistered) := by
  rw [← or_byteCountMask hn] at hpre
  have hp1 := RBuffer.prefix_left hpre
  have hp2 := RBuffer.prefix_adv hpre
  have hc2 := RBuffer.adv_le hc hp1
  simp only [beBytes_length] at hp1 hp2 hc2
  have hp3 := RBuffer.prefix_left hp2
  have hp4 := RBuffer.prefix_adv hp2
  have hc3 := RBuffer.adv_le hc2 hp3
  simp only [beBytes_length] at hp3 hp4 hc3
  have hu' : Rd.u32 (r.adv 4) = .ok (kNewClassTag, (r.adv 4).adv 4) := by
    rw [Rd.u32, Rd.uint_ok (k := 4) (by simp) hc2 hp3]; rfl
  have hcs := Reads.cstring 80 h0 hu hl ((r.adv 4).adv 4) hs hc3 hp4
  rw [Rd.objectAny_count factory hn hc hp1, Rd.bind_ok hu']
  unfold Rd.anyTag
  rw [if_neg (by decide), if_pos rfl, Rd.bind_ok hcs]
  simp only [hf]
  rfl

end Verif
