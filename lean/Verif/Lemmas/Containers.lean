import Verif.Lemmas.Emit
/-
Steps of the lock-step simulation for primitive fields, lists of objects, TList and TObjArray.
-/
namespace Verif

section steps
variable {ne : Bool} {K : Nat → Prop}

theorem Emit.i8 {v : Int} (h : InI 1 v) : Emit ne K K (Wr.i8 v) (fun _ => ()) Rd.i8 v :=
  Emit.lift' (Writes.bytes _) (Reads.sint (by decide) h) rfl
theorem Emit.i16 {v : Int} (h : InI 2 v) : Emit ne K K (Wr.i16 v) (fun _ => ()) Rd.i16 v :=
  Emit.lift' (Writes.bytes _) (Reads.sint (by decide) h) rfl
theorem Emit.i32 {v : Int} (h : InI 4 v) : Emit ne K K (Wr.i32 v) (fun _ => ()) Rd.i32 v :=
  Emit.lift' (Writes.bytes _) (Reads.sint (by decide) h) rfl
theorem Emit.i64 {v : Int} (h : InI 8 v) : Emit ne K K (Wr.i64 v) (fun _ => ()) Rd.i64 v :=
  Emit.lift' (Writes.bytes _) (Reads.sint (by decide) h) rfl
theorem Emit.u32 {v : Nat} (h : InU 4 v) : Emit ne K K (Wr.u32 v) (fun _ => ()) Rd.u32 v :=
  Emit.lift' (Writes.bytes _) (Reads.uint h) rfl
theorem Emit.f64 {v : Nat} (h : InU 8 v) : Emit ne K K (Wr.f64 v) (fun _ => ()) Rd.f64 v :=
  Emit.lift' (Writes.bytes _) (Reads.uint h) rfl
theorem Emit.f32 {v : Nat} (h : InU 4 v) : Emit ne K K (Wr.f32 v) (fun _ => ()) Rd.f32 v :=
  Emit.lift' (Writes.bytes _) (Reads.uint h) rfl
theorem Emit.bool (v : Bool) : Emit ne K K (Wr.bool v) (fun _ => ()) Rd.bool v :=
  Emit.lift' (Writes.bytes _) (Reads.bool v) rfl
theorem Emit.string {s : Str} (hl : s.length < 2 ^ 31) (hu : utf8 s = true) :
    Emit ne K K (Wr.string s) (fun _ => ()) Rd.string s :=
  Emit.lift' (Writes.string hl) (Reads.string (by omega) hu) rfl
theorem Emit.obj {o : TObject} (h : o.InRange) :
    Emit ne K K (Wr.drop o.marshal) (fun _ => ()) TObject.unmarshal o.afterRead :=
  (Emit.lift' (Writes.obj o) (Reads.obj h) (ret := id) rfl).drop
theorem Emit.named {n : TNamed} (h : n.InRange) :
    Emit true K K (Wr.drop n.marshal) (fun _ => ()) TNamed.unmarshal
      { n with obj := n.obj.afterRead } :=
  (Emit.lift (TNamed.writes h) (TNamed.reads h) (ret := id) rfl rfl).drop

/-- A null object. -/
theorem Emit.nil {ο} (build : Str → Option (Rd ο)) :
    Emit ne K K (Wr.drop Wr.objectNil) (fun _ => ()) (Rd.objectAny build) none := by
  refine Emit.drop (ret := fun _ => 0) (Emit.lift' (bs := beBytes 4 0) (a := 0) ?_ ?_ rfl)
  · exact (Writes.bind (b2 := []) (f := fun _ => (Pure.pure 0 : Wr Nat))
      (Writes.bytes (beBytes 4 kNullTag)) (Writes.pure 0)).congr rfl
  · refine (Reads.bind (b2 := []) (Reads.uint (k := 4) (v := 0) (by decide)) ?_).congr
      (List.append_nil _)
    exact Reads.pure none

end steps

/-- The last reading step, followed by building the value. -/
theorem Emit.last {α β γ} {ne K K'} {m : Wr α} {ret} {rd : Rd β} {f : β → γ} {v}
    (h : Emit ne K K' m ret rd v) :
    Emit ne K K' m ret (rd >>= fun x => Pure.pure (f x)) (f v) := h.thenPure rfl

theorem Rd.ensureMax_eq {v max : Int} (h : v ≤ max) : Rd.ensureMax v max = Pure.pure () := by
  unfold Rd.ensureMax; rw [if_neg (by omega)]
theorem Rd.ensureMin_eq {v min : Int} (h : min < v) : Rd.ensureMin v min = Pure.pure () := by
  unfold Rd.ensureMin; rw [if_neg (by omega)]
theorem Rd.pure_bind {α β} (a : α) (f : α → Rd β) : ((Pure.pure a : Rd α) >>= f) = f a := rfl
theorem Rd.bind_assoc {α β γ} (m : Rd α) (f : α → Rd β) (g : β → Rd γ) :
    (m >>= f) >>= g = m >>= fun a => f a >>= g := by
  funext r
  show (match (match m r with | .ok (a, r') => f a r' | .error e => .error e) with
    | .ok (b, r') => g b r' | .error e => .error e) =
    (match m r with
      | .ok (a, r') => (match f a r' with | .ok (b, r'') => g b r'' | .error e => .error e)
      | .error e => .error e)
  cases m r with
  | ok p => rfl
  | error e => rfl

/-! ### Lists -/

/-- Items with disjoint sets of addresses, one after the other. -/
theorem EmitS.each {ι β} {ne} {f : ι → Wr Unit} {rd : Rd β} {S : ι → List Nat} {v : ι → β}
    {l : List ι} (h : ∀ i ∈ l, EmitS ne (S i) (f i) (fun _ => ()) rd (v i))
    (hd : l.Pairwise fun i j => ∀ a ∈ S i, a ∉ S j) :
    EmitS ne (l.flatMap S) (Wr.each f l) (fun _ => ()) (Rd.times l.length rd) (l.map v) := by
  induction l with
  | nil => exact EmitS.pure rfl
  | cons i l ih =>
    rw [List.pairwise_cons] at hd
    simp only [Wr.each, List.flatMap_cons, List.length_cons, Rd.times, List.map_cons]
    refine EmitS.bind (c := ()) (h i (by simp)) (EmitS.thenPure
      (ih (fun j hj => h j (by simp [hj])) hd.2) rfl) (fun a ha hb => ?_) fun _ => rfl
    obtain ⟨j, hj, hb⟩ := List.mem_flatMap.1 hb
    exact hd.1 j hj a ha hb

/-- Items that write no new object. -/
theorem Emit.each {ι β} {ne K} {f : ι → Wr Unit} {rd : Rd β} {v : ι → β}
    {l : List ι} (h : ∀ i ∈ l, Emit ne K K (f i) (fun _ => ()) rd (v i)) :
    Emit ne K K (Wr.each f l) (fun _ => ()) (Rd.times l.length rd) (l.map v) := by
  induction l with
  | nil => exact Emit.pure rfl
  | cons i l ih =>
    simp only [Wr.each, List.length_cons, Rd.times, List.map_cons]
    exact Emit.bind (c := ()) (h i (by simp))
      (Emit.thenPure (ih fun j hj => h j (by simp [hj])) rfl) fun _ => rfl

theorem Wr.each_map {ι κ} (f : κ → Wr Unit) (g : ι → κ) (l : List ι) :
    Wr.each f (l.map g) = Wr.each (fun i => f (g i)) l := by
  induction l with
  | nil => rfl
  | cons i l ih => simp only [List.map_cons, Wr.each, ih]

theorem toSigned_mod {n : Nat} (h : n < 2 ^ 31) : toSigned 4 (n % 2 ^ 32) = (n : Int) := by
  unfold toSigned
  rw [Nat.mod_eq_of_lt (by omega), if_pos (by omega)]

theorem InI4_nat {n : Nat} (h : n < 2 ^ 31) : InI 4 (n : Int) := by unfold InI; omega

/-- `TObjArray` from the emission of its objects. -/
theorem Emit.objArray {ο} {ne K K'} {any : Rd (Option ο)} {objs : List WObj}
    {vals : List (Option ο)} {obj : TObject} {name : Option Str} {low : Int}
    (h : Emit true K K' (Wr.each (fun o => Wr.drop (Wr.objectAny o)) objs) (fun _ => ())
      (Rd.times objs.length any) vals)
    (hobj : obj.InRange) (hlow : InI 4 low) (hname : (name.getD []).length < 2 ^ 31)
    (hutf : utf8 (name.getD []) = true) (hlen : objs.length < 2 ^ 31) :
    Emit ne K K' (TObjArray.marshal obj name low objs) id (TObjArray.unmarshal any)
      (obj.afterRead, some (name.getD []), low, vals.filterMap id) := by
  unfold TObjArray.marshal TObjArray.unmarshal
  refine Emit.framed (by decide) fun hd hv => ?_
  have h2 : 2 < hd.vers := by rw [hv]; decide
  have h1 : 1 < hd.vers := by omega
  rw [Rd.ensureMax_eq (by rw [hv]; decide), Rd.pure_bind]
  simp only [h1, h2, if_true, if_neg (show ¬ 2 ^ 31 ≤ objs.length by omega)]
  refine Emit.bind (c := ()) (Emit.obj hobj) ?_ fun _ => rfl
  refine Emit.bind (c := ()) (Emit.last (Emit.string hname hutf)) ?_ fun _ => rfl
  refine Emit.bind (c := ()) (Emit.i32 (InI4_nat hlen)) ?_ fun _ => rfl
  refine Emit.bind (c := ()) (Emit.i32 hlow) ?_ fun _ => rfl
  exact Emit.last h

/-- Objects with disjoint sets of addresses. -/
theorem EmitS.objects {ο ι} {any : Rd (Option ο)} {l : List ι} {f : ι → WObj} {S : ι → List Nat}
    {val : ι → Option ο} (h : ∀ i ∈ l, EmitS true (S i) (Wr.objectAny (f i)) id any (val i))
    (hd : l.Pairwise fun i j => ∀ a ∈ S i, a ∉ S j) :
    EmitS true (l.flatMap S) (Wr.each (fun o => Wr.drop (Wr.objectAny o)) (l.map f)) (fun _ => ())
      (Rd.times (l.map f).length any) (l.map val) := by
  rw [Wr.each_map, List.length_map]
  exact EmitS.each (fun i hi => (h i hi).drop) hd

theorem utf8_nil : utf8 [] = true := by decide

theorem TObject.default_inRange : TObject.default.InRange := by decide

/-- The arrays inside the records: default object, no name. -/
theorem Emit.plainArray {ο} {ne K K'} {any : Rd (Option ο)} {objs : List WObj}
    {vals : List (Option ο)}
    (h : Emit true K K' (Wr.each (fun o => Wr.drop (Wr.objectAny o)) objs) (fun _ => ())
      (Rd.times objs.length any) vals) (hlen : objs.length < 2 ^ 31) :
    Emit ne K K' (TObjArray.marshal TObject.default none 0 objs) id (TObjArray.unmarshal any)
      (TObject.default.afterRead, some [], 0, vals.filterMap id) :=
  Emit.objArray h TObject.default_inRange (by decide) (by decide) utf8_nil hlen

/-- One entry of a `TList`, as the reader takes it. -/
def listEntry {ο} (any : Rd (Option ο)) : Rd ο := do
  match ← any with
  | none => Rd.panic
  | some o =>
    let n ← Rd.u8
    if 0 < n then Rd.panic else pure o

/-- The same, but a missing object is not fatal. -/
def lenientEntry {ο} (any : Rd (Option ο)) : Rd (Option ο) := do
  match ← any with
  | none =>
    let n ← Rd.u8
    if 0 < n then Rd.panic else pure none
  | some o =>
    let n ← Rd.u8
    if 0 < n then Rd.panic else pure (some o)

/-- `TList::unmarshal` with any way of reading an entry. -/
def TList.readWith {β} (entry : Rd β) : Rd (TObject × Str × List β) := do
  let h ← Rd.header
  Rd.ensureMax h.vers rversList
  Rd.ensureMin h.vers 3
  let obj ← TObject.unmarshal
  let name ← Rd.string
  let size ← Rd.i32
  let objs ← Rd.times size.toNat entry
  pure (obj, name, objs)

theorem TList.unmarshal_eq {ο} (any : Rd (Option ο)) :
    TList.unmarshal any = TList.readWith (listEntry any) := rfl

theorem Emit.emptyString {ne K} {γ} {f : Nat → Rd γ} {u} (hf : f 0 = Pure.pure u) :
    Emit ne K K (Wr.string []) (fun _ => ()) (Rd.u8 >>= f) u :=
  Emit.thenPure (v := 0) (Emit.lift' (bs := [0]) (Writes.string (s := []) (by decide))
    (Reads.uint (k := 1) (v := 0) (by decide)) rfl) hf

/-- The body of a `TList` entry. -/
theorem Emit.listEntry {ο} {K K'} {any : Rd (Option ο)} {o : WObj} {v : ο}
    (h : Emit true K K' (Wr.objectAny o) id any (some v)) :
    Emit true K K' (do Wr.drop (Wr.objectAny o); Wr.string []) (fun _ => ()) (listEntry any) v :=
  Emit.bind (c := ()) h.drop (Emit.emptyString rfl) fun _ => rfl

theorem Emit.lenientEntry {ο} {K K'} {any : Rd (Option ο)} {o : WObj} {v : Option ο}
    (h : Emit true K K' (Wr.objectAny o) id any v) :
    Emit true K K' (do Wr.drop (Wr.objectAny o); Wr.string []) (fun _ => ()) (lenientEntry any) v := by
  refine Emit.bind (c := ()) h.drop ?_ fun _ => rfl
  cases v with
  | none => exact Emit.emptyString rfl
  | some v => exact Emit.emptyString rfl

theorem Emit.listWith {β} {ne K K'} {entry : Rd β} {objs : List WObj} {vals : List β}
    {obj : TObject} {name : Option Str}
    (h : Emit true K K' (Wr.each (fun o => do Wr.drop (Wr.objectAny o); Wr.string []) objs)
      (fun _ => ()) (Rd.times objs.length entry) vals)
    (hobj : obj.InRange) (hname : (name.getD []).length < 2 ^ 31)
    (hutf : utf8 (name.getD []) = true) (hlen : objs.length < 2 ^ 31) :
    Emit ne K K' (TList.marshal obj name objs) id (TList.readWith entry)
      (obj.afterRead, name.getD [], vals) := by
  unfold TList.marshal TList.readWith
  refine Emit.counted (Emit.drop (ret := id) (Emit.framed (by decide) fun hd' hv => ?_))
  rw [Rd.ensureMax_eq (by rw [hv]; decide), Rd.ensureMin_eq (by rw [hv]; decide), Rd.pure_bind,
    Rd.pure_bind, toSigned_mod hlen]
  refine Emit.bind (c := ()) (Emit.obj hobj) ?_ fun _ => rfl
  refine Emit.bind (c := ()) (Emit.string hname hutf) ?_ fun _ => rfl
  refine Emit.bind (c := ()) (Emit.i32 (InI4_nat hlen)) ?_ fun _ => rfl
  exact Emit.last h

theorem EmitS.list {ο ι} {ne} {any : Rd (Option ο)} {l : List ι} {f : ι → WObj} {S : ι → List Nat}
    {val : ι → ο} {obj : TObject} {name : Option Str}
    (h : ∀ i ∈ l, EmitS true (S i) (Wr.objectAny (f i)) id any (some (val i)))
    (hd : l.Pairwise fun i j => ∀ a ∈ S i, a ∉ S j)
    (hobj : obj.InRange) (hname : (name.getD []).length < 2 ^ 31)
    (hutf : utf8 (name.getD []) = true) (hlen : l.length < 2 ^ 31) :
    EmitS ne (l.flatMap S) (TList.marshal obj name (l.map f)) id (TList.unmarshal any)
      (obj.afterRead, name.getD [], l.map val) := by
  intro K hK
  rw [TList.unmarshal_eq]
  refine Emit.listWith ?_ hobj hname hutf (by simpa using hlen)
  rw [Wr.each_map, List.length_map]
  exact EmitS.each (fun i hi L hL => Emit.listEntry (h i hi L hL)) hd K hK

/-! A list read leniently with a hole makes the real reader abort. -/

theorem listEntry_of_lenient {ο} {any : Rd (Option ο)} {r r' : RBuffer} {v : Option ο}
    (h : lenientEntry any r = .ok (v, r')) :
    (∀ o, v = some o → Verif.listEntry any r = .ok (o, r')) ∧
    (v = none → Verif.listEntry any r = .error .panic) := by
  unfold lenientEntry at h
  unfold Verif.listEntry
  cases ha : any r with
  | error e => rw [Rd.bind_err ha] at h; cases h
  | ok p =>
    obtain ⟨x, r1⟩ := p
    rw [Rd.bind_ok ha] at h ⊢
    cases x with
    | none =>
      simp only [] at h ⊢
      refine ⟨fun o ho => ?_, fun _ => rfl⟩
      cases hb : Rd.u8 r1 with
      | error e => rw [Rd.bind_err hb] at h; cases h
      | ok q =>
        rw [Rd.bind_ok hb] at h
        split at h
        · cases h
        · rw [Rd.pure_eq] at h
          injection h with h; injection h with h _
          rw [← h] at ho; cases ho
    | some o =>
      simp only [] at h ⊢
      cases hb : Rd.u8 r1 with
      | error e => rw [Rd.bind_err hb] at h; cases h
      | ok q =>
        rw [Rd.bind_ok hb] at h ⊢
        split at h
        · cases h
        · rename_i hq
          rw [Rd.pure_eq] at h
          injection h with h; injection h with h1 h2
          subst h1 h2
          refine ⟨fun o' ho => ?_, fun hn => (by cases hn)⟩
          injection ho with ho
          rw [if_neg hq, ho]; rfl

theorem times_listEntry {ο} {any : Rd (Option ο)} {n : Nat} {r r' : RBuffer} {vs : List (Option ο)}
    (h : Rd.times n (lenientEntry any) r = .ok (vs, r')) (hn : none ∈ vs) :
    Rd.times n (Verif.listEntry any) r = .error .panic := by
  induction n generalizing r r' vs with
  | zero =>
    rw [Rd.times, Rd.pure_eq] at h
    injection h with h; injection h with h _
    subst h; cases hn
  | succ n ih =>
    simp only [Rd.times] at h ⊢
    cases ha : lenientEntry any r with
    | error e => rw [Rd.bind_err ha] at h; cases h
    | ok p =>
      obtain ⟨v, r1⟩ := p
      rw [Rd.bind_ok ha] at h
      cases v with
      | none => exact Rd.bind_err ((listEntry_of_lenient ha).2 rfl)
      | some o =>
        rw [Rd.bind_ok ((listEntry_of_lenient ha).1 o rfl)]
        cases hb : Rd.times n (lenientEntry any) r1 with
        | error e => rw [Rd.bind_err hb] at h; cases h
        | ok q =>
          obtain ⟨vs', r2⟩ := q
          rw [Rd.bind_ok hb, Rd.pure_eq] at h
          injection h with h; injection h with h _
          subst h
          refine Rd.bind_err (ih hb ?_)
          simpa using hn

theorem Rd.bind_eq_ok {α β} {m : Rd α} {f : α → Rd β} {r : RBuffer} {b : β} {r' : RBuffer}
    (h : (m >>= f) r = .ok (b, r')) : ∃ a r1, m r = .ok (a, r1) ∧ f a r1 = .ok (b, r') := by
  cases hm : m r with
  | error e => rw [Rd.bind_err hm] at h; cases h
  | ok p => exact ⟨p.1, p.2, rfl, by rw [Rd.bind_ok (a := p.1) (r' := p.2) hm] at h; exact h⟩

theorem TList.unmarshal_of_hole {ο} {any : Rd (Option ο)} {r r' : RBuffer} {o : TObject} {s : Str}
    {vs : List (Option ο)} (h : TList.readWith (Verif.lenientEntry any) r = .ok ((o, s, vs), r'))
    (hn : none ∈ vs) : TList.unmarshal any r = .error .panic := by
  rw [TList.unmarshal_eq]
  unfold TList.readWith at h ⊢
  obtain ⟨a1, r1, e1, h⟩ := Rd.bind_eq_ok h
  obtain ⟨a2, r2, e2, h⟩ := Rd.bind_eq_ok h
  obtain ⟨a3, r3, e3, h⟩ := Rd.bind_eq_ok h
  obtain ⟨a4, r4, e4, h⟩ := Rd.bind_eq_ok h
  obtain ⟨a5, r5, e5, h⟩ := Rd.bind_eq_ok h
  obtain ⟨a6, r6, e6, h⟩ := Rd.bind_eq_ok h
  obtain ⟨a7, r7, e7, h⟩ := Rd.bind_eq_ok h
  rw [Rd.pure_eq] at h
  injection h with h; injection h with h _; injection h with _ h; injection h with _ h
  subst h
  rw [Rd.bind_ok e1, Rd.bind_ok e2, Rd.bind_ok e3, Rd.bind_ok e4, Rd.bind_ok e5, Rd.bind_ok e6]
  exact Rd.bind_err (times_listEntry e7 hn)

end Verif
