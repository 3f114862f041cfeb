import Verif.Lemmas.Streamers
/-
C41: class streamer records.
-/
namespace Verif

/-- C41: a streamer record is read back with the same class name, title, checksum, version and the
same elements in the same order, each of the same kind with all its fields.  Not part of the value:
the numbers that identify objects in the writing process.  Base classes `TNamed` and `TObject` come
back with the general base type, and members of basic type with the size of that type.  The record is
written after something else (`pre` not empty), as the library does. -/
theorem C41_streamer_record (s : StreamerInfo) (h : s.Storable) (fuel off : Nat) (pre : List Byte)
    (hpre : pre ≠ []) :
    RoundTripAt off pre s.marshal (StreamerInfo.unmarshal (readAny (fuel + 2))) s.expected :=
  (StreamerInfo.emit h fuel).roundTripAt fun _ => hpre

/-- C41, the fields named by the claim: from the record read back one finds the class name, the
checksum, the version and, element by element, kind, name, title, type name and base version; the
type too, except that `TNamed` and `TObject` become the general base type; the size too, where it is
the size of the type for basic types. -/
theorem C41_fields (s : StreamerInfo) (h : s.Storable) (fuel off : Nat) (pre : List Byte)
    (hpre : pre ≠ []) : ∃ t : StreamerInfo,
    RoundTripAt off pre s.marshal (StreamerInfo.unmarshal (readAny (fuel + 2))) t ∧
    t.named = s.named ∧ t.chksum = s.chksum ∧ t.clsver = s.clsver ∧
    t.elems.length = s.elems.length ∧
    ∀ i (hi : i < s.elems.length) (hj : i < t.elems.length),
      t.elems[i].cls = s.elems[i].cls ∧
      t.elems[i].element.named = s.elems[i].element.named ∧
      (s.elems[i].element.etype ≠ .named .tNamed → s.elems[i].element.etype ≠ .named .tObject →
        t.elems[i].element.etype = s.elems[i].element.etype) ∧
      (s.elems[i].cls ≠ b! "TStreamerBasicType" ∨
          s.elems[i].element.esize = s.elems[i].element.basicSize →
        t.elems[i].element.esize = s.elems[i].element.esize) ∧
      t.elems[i].element.ename = s.elems[i].element.ename ∧
      ∀ e v, s.elems[i] = .base e v → ∃ e', t.elems[i] = .base e' v := by
  refine ⟨_, C41_streamer_record s h fuel off pre hpre, rfl, rfl, rfl,
    by simp [StreamerInfo.expected], fun i hi hj => ?_⟩
  have e : s.expected.elems[i] = s.elems[i].expected := by simp [StreamerInfo.expected]
  rw [e]
  have hst : ∀ t : EnumT, t ≠ .named .tNamed → t ≠ .named .tObject → t.stored = t := by
    intro t h1 h2
    unfold EnumT.stored
    rw [if_neg (by rintro (h | h) <;> contradiction)]
  cases s.elems[i] with
  | basicType e =>
    refine ⟨rfl, rfl, hst _, fun h => ?_, rfl, fun _ _ h => by cases h⟩
    rcases h with h | h
    · exact absurd rfl h
    · exact h.symm
  | _ => exact ⟨rfl, rfl, hst _, fun _ => rfl, rfl, fun _ _ h => by cases h <;> exact ⟨_, rfl⟩⟩

/-- C41 does not extend to the type of a `TNamed` base: it is stored as a general base. -/
theorem C41_named_base_type_lost (e : StreamerElement) (h : e.etype = .named .tNamed) :
    e.expected.etype ≠ e.etype := by
  simp [StreamerElement.expected, EnumT.stored, h]

/-- The record of a class with a base and an integer. -/
def someInfo : StreamerInfo where
  named := { name := b! "Event", title := b! "" }
  chksum := 0xdeadbeef
  clsver := 3
  id := 1
  elems :=
    [.base { named := { name := b! "TNamed", title := b! "The basis" }, etype := .named .tNamed,
             esize := 0, ename := b! "BASE", id := 2 } 1,
     .basicType { named := { name := b! "run", title := b! "" }, etype := .named .int, esize := 4,
                  ename := b! "int", id := 3 }]

theorem someInfo_storable : someInfo.Storable where
  named := by decide
  chksum := by decide
  clsver := by decide
  elems := by
    intro e he
    simp only [someInfo, List.mem_cons, List.not_mem_nil, or_false] at he
    rcases he with rfl | rfl
    · refine ⟨?_, by decide⟩
      constructor <;> first | decide | (intro; contradiction) | exact .inl (by decide)
    · refine ⟨?_, by decide, by decide⟩
      constructor <;> first | decide | (intro; contradiction) | exact .inl (by decide)
  few := by decide
  distinct := by decide

example : someInfo.Storable ∧ ([0] : List Byte) ≠ [] := ⟨someInfo_storable, by decide⟩

/-- C41, error branch: an element of the kind `TStreamerSTLstring` cannot be written. -/
theorem C41_stlstring_unsupported (e : StreamerElement) (v : ESTLType) (c : EnumT) (w : WBuffer) :
    (Streamer.stlString e v c).marshal w = .error .panic := rfl

end Verif
