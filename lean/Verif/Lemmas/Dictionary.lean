import Verif.Model.Dictionary
import Verif.Spec.Reopen
import Verif.Spec.Demo
/-
Helper lemmas: the bundled dictionary, looked at record by record.
-/
namespace Verif

/-- The records of the dictionary. -/
def bundledList : List StreamerInfo := match bundledRecords with
  | .ok rs => rs
  | .error _ => []

theorem bundled_ok : bundledRecords = .ok bundledList := by
  have h : isOk bundledRecords = true := by decide +kernel
  unfold bundledList
  generalize bundledRecords = x at h
  cases x with
  | ok => rfl
  | error => cases h

theorem bundledDb_eq (name : Str) (vers : Int) : bundledDb name vers = findRecord bundledList name vers := by
  unfold bundledDb
  rw [bundled_ok]

theorem findRecord_mem {rs : List StreamerInfo} {name : Str} {vers : Int} {s : StreamerInfo}
    (h : findRecord rs name vers = some s) : s ∈ rs := by
  unfold findRecord at h
  split at h
  · exact List.mem_reverse.1 (List.mem_of_find?_eq_some h)
  · exact List.mem_of_find?_eq_some h

theorem bundledDb_mem {name : Str} {vers : Int} {s : StreamerInfo} (h : bundledDb name vers = some s) :
    s ∈ bundledList := by
  rw [bundledDb_eq] at h
  exact findRecord_mem h

/-! ### Every record can be stored -/

/-- `StreamerElement.Storable`, computed, for an element without title. -/
def StreamerElement.check (e : StreamerElement) : Bool :=
  decide e.named.Fits && e.named.title.isEmpty && decide (EnumT.fromI32 e.etype.toI32 = e.etype) &&
  decide (InI 4 e.etype.toI32) && !(e.etype = .named .uChar && (e.ename = b! "Bool_t" || e.ename = b! "bool")) &&
  decide (InI 4 e.esize) && decide (InI 4 e.arrLen) && decide (InI 4 e.arrDim) &&
  decide (e.maxIdx = [0, 0, 0, 0, 0]) && decide (TextOk e.ename) && e.xmin = 0 && e.xmax = 0 && e.factor = 0

theorem StreamerElement.check_sound {e : StreamerElement} (h : e.check = true) : e.Storable := by
  unfold StreamerElement.check at h
  simp only [Bool.and_eq_true, decide_eq_true_eq, List.isEmpty_iff, Bool.not_eq_true', Bool.and_eq_false_iff,
    Bool.or_eq_false_iff, decide_eq_false_iff_not] at h
  obtain ⟨⟨⟨⟨⟨⟨⟨⟨⟨⟨⟨⟨h1, h2⟩, h3⟩, h4⟩, h5⟩, h6⟩, h7⟩, h8⟩, h9⟩, h10⟩, h11⟩, h12⟩, h13⟩ := h
  refine ⟨h1, ?_, h3, h4, ?_, h6, h7, h8, ?_, ?_, h10, h11, h12, h13⟩
  · rw [h2]; exact .inl (by simp)
  · intro hu
    rcases h5 with h5 | h5
    · exact absurd hu h5
    · exact h5
  · rw [h9]; rfl
  · rw [h9]; decide

/-- `Streamer.Storable`, computed. -/
def Streamer.check : Streamer → Bool
  | .stlString .. => false
  | .string e | .objectAny e | .object e | .objectPointer e => e.check
  | .basicType e => e.check && (basicKind e.etype.stored.toI32).isSome && decide (InI 4 e.basicSize)
  | .basicPointer e cvers cname ccls => e.check && decide (InI 4 cvers) && decide (TextOk cname) &&
      decide (TextOk ccls)
  | .stl e vtype ctype => e.check && decide (EnumT.fromI32 ctype.toI32 = ctype) &&
      decide (InI 4 ctype.toI32) && decide (vtype ≠ .multimap) && decide (vtype ≠ .set)
  | .base e vbase => e.check && decide (InI 4 vbase)

theorem Streamer.check_sound {s : Streamer} (h : s.check = true) : s.Storable := by
  cases s with
  | stlString => cases h
  | string e => exact StreamerElement.check_sound (e := e) h
  | objectAny e => exact StreamerElement.check_sound (e := e) h
  | object e => exact StreamerElement.check_sound (e := e) h
  | objectPointer e => exact StreamerElement.check_sound (e := e) h
  | basicType e =>
    simp only [Streamer.check, Bool.and_eq_true, decide_eq_true_eq] at h
    exact ⟨StreamerElement.check_sound h.1.1, h.1.2, h.2⟩
  | basicPointer e v n c =>
    simp only [Streamer.check, Bool.and_eq_true, decide_eq_true_eq] at h
    exact ⟨StreamerElement.check_sound h.1.1.1, h.1.1.2, h.1.2, h.2⟩
  | stl e v c =>
    simp only [Streamer.check, Bool.and_eq_true, decide_eq_true_eq] at h
    refine ⟨StreamerElement.check_sound h.1.1.1.1, h.1.1.1.2, h.1.1.2, ?_⟩
    rintro (hm | hm)
    · exact absurd hm h.1.2
    · exact absurd hm h.2
  | base e v =>
    simp only [Streamer.check, Bool.and_eq_true, decide_eq_true_eq] at h
    exact ⟨StreamerElement.check_sound h.1, h.2⟩

/-- `StreamerInfo.Describable`, computed. -/
def StreamerInfo.check (s : StreamerInfo) : Bool :=
  decide s.named.Fits && decide (InU 4 s.chksum) && decide (InI 4 s.clsver) && s.elems.all Streamer.check &&
  decide (s.elems.length < 2 ^ 31)

theorem StreamerInfo.check_sound {s : StreamerInfo} (h : s.check = true) : s.Describable := by
  unfold StreamerInfo.check at h
  simp only [Bool.and_eq_true, decide_eq_true_eq, List.all_eq_true] at h
  exact ⟨h.1.1.1.1, h.1.1.1.2, h.1.1.2, fun e he => Streamer.check_sound (h.1.2 e he), h.2⟩

theorem bundled_check : bundledList.all StreamerInfo.check = true := by decide +kernel

/-! ### What a record depends on is there -/

/-- The class is one the library leaves out, or it is in the dictionary. -/
def depKnown (db : Str → Int → Option StreamerInfo) (d : Str × Int) : Bool :=
  coreTypes.contains d.1 || cxxBuiltins.contains d.1 || (db d.1 d.2).isSome

/-- All that the elements refer to, `n` levels deep, is there. -/
def resolves (db : Str → Int → Option StreamerInfo) : Nat → List Streamer → Bool
  | 0, es => es.isEmpty
  | n + 1, es => es.all fun e =>
    (match e.dep with
      | .ok d => d.toList.all (depKnown db)
      | .error _ => false) &&
    (decide (e.element.ename = b! "TVirtualIndex" ∨ e.element.ename = b! "TVirtualIndex*") ||
      match e.next with
      | none => true
      | some name => match db name (-1) with
        | none => false
        | some s => resolves db n s.elems)

theorem bundled_tree : (match bundledDb (b! "TTree") 20 with
    | some s => decide (s.name = b! "TTree") && resolves bundledDb 10 s.elems
    | none => false) = true := by decide +kernel

end Verif
