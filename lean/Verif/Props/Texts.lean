import Verif.Spec.Texts
import Verif.Props.Containers
import Verif.Lemmas.RootFiles
/-
C76: texts whose bytes are not UTF-8.
-/
namespace Verif

theorem Reads.anyString {s : List Byte} (h : s.length < 2 ^ 32) : Reads Rd.string (rootText s) (shownText s) := by
  have key : ∀ n, n = s.length → Reads (if n = 0 then (Pure.pure [] : Rd Str) else (do
      let buf ← Rd.take n
      if utf8 buf then Pure.pure buf else Pure.pure [])) s (shownText s) := by
    intro n hn
    subst hn
    by_cases h0 : s.length = 0
    · have : s = [] := by simpa using h0
      subst this
      exact Reads.pure _
    · rw [if_neg h0]
      have := Reads.bind (Reads.take s)
        (f := fun buf => if utf8 buf then (Pure.pure buf : Rd Str) else Pure.pure [])
        (b2 := []) (b := shownText s) (by
          unfold shownText
          split <;> exact Reads.pure _)
      simpa using this
  rw [rootText_eq]
  unfold Rd.string encStr
  by_cases hl : s.length < 255
  · rw [if_pos hl]
    refine Reads.bind (Reads.uint (k := 1) (by omega)) ?_
    rw [if_neg (by omega)]
    exact Reads.bind (b1 := []) (Reads.pure s.length) (key s.length rfl)
  · rw [if_neg hl]
    refine Reads.bind (Reads.uint (k := 1) (by omega)) ?_
    rw [if_pos rfl]
    exact Reads.bind (Reads.uint (k := 4) (by omega)) (key s.length rfl)

theorem alike_eq {α β} {f : β → α} {zs : List α} {ys : List β} (h : Alike (fun z y => z = f y) zs ys) :
    zs = ys.map f := by
  refine List.ext_getElem? fun i => ?_
  rw [List.getElem?_map]
  rcases Nat.lt_or_ge i ys.length with hi | hi
  · have hz : i < zs.length := by rw [h.1]; exact hi
    rw [List.getElem?_eq_getElem hi, List.getElem?_eq_getElem hz]
    exact congrArg some (h.2 i _ _ (List.getElem?_eq_getElem hz) (List.getElem?_eq_getElem hi))
  · rw [List.getElem?_eq_none hi, List.getElem?_eq_none (by rw [h.1]; exact hi)]
    rfl

/-- C76, one text: whatever its bytes are, what follows it is read from the right place.  It is shown as it is if
it is UTF-8.  Missing: other texts, `C76_false`. -/
theorem C76_text_partial (s : List Byte) (h : s.length < 2 ^ 32) (r : RBuffer) (hs : r.skip = none)
    (hc : r.c ≤ r.p.length) {rest : List Byte} (hr : r.rest = rootText s ++ rest) :
    Rd.string r = .ok (shownText s, r.adv (rootText s).length) ∧ (utf8 s = true → shownText s = s) :=
  ⟨Reads.anyString h r hs hc ⟨rest, hr.symm⟩, fun hu => if_pos hu⟩

example : ([233, 116, 233] : List Byte).length < 2 ^ 32 ∧ utf8 [233, 116, 233] = false ∧
    RBuffer.rest { p := rootText [233, 116, 233] ++ [7], c := 0, offset := 0, refs := [], skip := none } =
      rootText [233, 116, 233] ++ [7] := ⟨by decide, by decide, rfl⟩

/-- C76, columns of texts: the column is read to its end, and every entry that is UTF-8 is given as it is, whatever
the other entries are.  Missing: `C76_false`. -/
theorem C76_column_partial (r : Reader) (b : Branch) (e : BranchElem) (hb : b.branches = []) (he : b.elem = some e)
    (h : Nat) (hh : e.header r b.data.named.name = .ok (h : Int)) (groups : List (List (List Byte × List Byte)))
    (hk : Keeps r b.data Slot.isObject (groups.map fun g => g.map fun p => p.1 ++ rootText p.2))
    (hok : ∀ g ∈ groups, ∀ p ∈ g, IsHeader p.1 ∧ p.1.length = h ∧ p.2.length < 2 ^ 32) :
    b.getBasket r Ty.string.unmarshal = .ok (groups.flatten.map fun p => shownText p.2) := by
  obtain ⟨zs, e1, e2⟩ := getBasket_objects (func := Ty.string.unmarshal) (R := fun z p => z = shownText p.2) hb he hh hk
    (by
      intro g hg p hp
      obtain ⟨h1, h2, h3⟩ := hok g hg p hp
      refine ⟨_, ?_, rfl⟩
      have := readWith_skip (rest := []) (s := (p.1.length : Int)) (func := Ty.string.unmarshal)
        (ReadsE.bind (ReadsE.header h1 fun _ h => h) ((Reads.anyString h3).free (P := fun _ => True) SkipFree.string))
      rw [List.append_nil, h2] at this
      exact this)
  rw [e1, alike_eq e2]

/-- Two texts, one of them in another encoding. -/
def demoLatin : List (List Byte × List Byte) :=
  [([64, 0, 0, 6, 0, 9], [233, 116, 233]), ([64, 0, 0, 4, 0, 9], b! "c")]

/-- Their branch. -/
def demoLatinBranch : Branch :=
  .mk (demoBasketBranch (demoLatin.map fun p => p.1 ++ rootText p.2) (.element 1 {} 0 (-1)))
    (some { className := b! "string", stype := 300 }) []

example : demoLatinBranch.getBasket (demoBasketReader (demoLatin.map fun p => p.1 ++ rootText p.2)) Ty.string.unmarshal =
    .ok [[], b! "c"] :=
  C76_column_partial _ demoLatinBranch _ rfl rfl 6 rfl [demoLatin]
    (demoBasket_keeps (by decide +kernel) ⟨_, _, _, _, rfl⟩) (by
      intro g hg p hp
      rw [List.mem_singleton.1 hg] at hp
      simp only [demoLatin, List.mem_cons, List.not_mem_nil, or_false] at hp
      rcases hp with rfl | rfl <;> exact ⟨⟨by decide, rfl⟩, rfl, by decide⟩)

/-- C76, columns of vectors of texts: so are the texts of a vector.  Missing: `C76_false`. -/
theorem C76_vectors_partial (r : Reader) (b : Branch) (e : BranchElem) (hb : b.branches = []) (he : b.elem = some e)
    (h : Nat) (hh : e.header r b.data.named.name = .ok (h : Int)) (groups : List (List (List Byte × List (List Byte))))
    (hk : Keeps r b.data Slot.isObject
      (groups.map fun g => g.map fun p => p.1 ++ (beBytes 4 p.2.length ++ p.2.flatMap rootText)))
    (hok : ∀ g ∈ groups, ∀ p ∈ g, IsHeader p.1 ∧ p.1.length = h ∧ p.2.length < 2 ^ 31 ∧ ∀ s ∈ p.2, s.length < 2 ^ 32) :
    b.getBasket r (Ty.vec .string).unmarshal = .ok (groups.flatten.map fun p => p.2.map shownText) := by
  obtain ⟨zs, e1, e2⟩ := getBasket_objects (func := (Ty.vec .string).unmarshal) (R := fun z p => z = p.2.map shownText)
    hb he hh hk
    (by
      intro g hg p hp
      obtain ⟨h1, h2, h3, h4⟩ := hok g hg p hp
      refine ⟨_, ?_, rfl⟩
      have := readWith_skip (rest := []) (s := (p.1.length : Int)) (func := (Ty.vec .string).unmarshal)
        (bs := p.1 ++ (beBytes 4 p.2.length ++ p.2.flatMap rootText)) (a := p.2.map shownText) (P := fun _ => True) (by
          refine ReadsE.bind (ReadsE.header h1 fun _ h => h) ?_
          refine ReadsE.bind ((Reads.i32_ofNat h3).free (SkipFree.sint 4)) ?_
          rw [if_neg (by omega)]
          refine (ReadsE.bind (b1 := []) (ReadsE.setSkip none) ?_).congr (List.nil_append _)
          exact (Reads.timesMap fun s hs => Reads.bind (b1 := []) Reads.doSkipHeader (Reads.anyString (h4 s hs))).toE trivial)
      rw [List.append_nil, h2] at this
      exact this)
  rw [e1, alike_eq e2]

/-- Three vectors of texts, one of them with a text in another encoding. -/
def demoTexts : List (List Byte × List (List Byte)) :=
  [([64, 0, 0, 14, 0, 9], [b! "a", [233, 116, 233], b! "b"]), ([64, 0, 0, 6, 0, 9], []), ([64, 0, 0, 8, 0, 9], [b! "c"])]

/-- Their bytes. -/
def demoTextBytes : List (List Byte) := demoTexts.map fun p => p.1 ++ (beBytes 4 p.2.length ++ p.2.flatMap rootText)

/-- Their branch. -/
def demoTextBranch : Branch :=
  .mk (demoBasketBranch demoTextBytes (.element 1 {} 0 (-1))) (some { className := b! "vector<string>", stype := -1 }) []

theorem demo_texts : demoTextBranch.getBasket (demoBasketReader demoTextBytes) (Ty.vec .string).unmarshal =
    .ok [[b! "a", [], b! "b"], [], [b! "c"]] := by
  have := C76_vectors_partial (demoBasketReader demoTextBytes) demoTextBranch _ rfl rfl 6 rfl [demoTexts]
    (demoBasket_keeps (by decide +kernel) ⟨_, _, _, _, rfl⟩) (by
      intro g hg p hp
      rw [List.mem_singleton.1 hg] at hp
      simp only [demoTexts, List.mem_cons, List.not_mem_nil, or_false] at hp
      rcases hp with rfl | rfl | rfl <;> exact ⟨⟨by decide, rfl⟩, rfl, by decide, by decide⟩)
  exact this

/-- C76 fails: a text that is not UTF-8 is given as the empty text, in the same way as the empty text itself. -/
theorem C76_false (s : List Byte) (h : s.length < 2 ^ 32) (hu : utf8 s = false) (r : RBuffer) (hs : r.skip = none)
    (hc : r.c ≤ r.p.length) {rest : List Byte} (hr : r.rest = rootText s ++ rest) :
    s ≠ [] ∧ Rd.string r = .ok ([], r.adv (rootText s).length) := by
  refine ⟨fun e => ?_, ?_⟩
  · rw [e] at hu
    cases hu
  rw [Reads.anyString h r hs hc ⟨rest, hr.symm⟩]
  unfold shownText
  rw [hu]
  rfl

example : ([233, 116, 233] : List Byte).length < 2 ^ 32 ∧ utf8 [233, 116, 233] = false := by decide

end Verif
