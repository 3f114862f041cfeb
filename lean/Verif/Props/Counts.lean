import Verif.Lemmas.Counts
/-
C43: a marshalled object reports the number of bytes it wrote.
-/
namespace Verif

/-- Whatever is in the buffer and wherever it starts, writing any supported object appends exactly as
many bytes as the returned count says.  The full claim also covers the null object, for which it is
false (`C43_nil_false`). -/
theorem C43_partial {m : Wr Nat} (h : Marshalling m) : CountsItsBytes m := h.honest.counts

/-- A list of two objects of the same class, one of them twice, into a buffer already holding bytes. -/
example :
    let a : WObj := { cls := b! "TNamed", addr := 1, marshal := ({ name := b! "x" } : TNamed).marshal }
    let b : WObj := { cls := b! "TNamed", addr := 2, marshal := ({ name := b! "yy" } : TNamed).marshal }
    let m := TList.marshal TObject.default none [a, b, a]
    Marshalling m ∧
      (m { p := [1, 2, 3], c := 3, offset := 40, refsP := [], refsS := [] }).toOption.map
        (fun x => (x.1, x.2.p.length)) = some (94, 97) := by
  refine ⟨.list _ _ _ fun x hx => ?_, by decide +kernel⟩
  simp only [List.mem_cons, List.not_mem_nil, or_false] at hx
  rcases hx with rfl | rfl | rfl <;> exact .named _

/-- Writing a null object appends four bytes and reports none (wbuffer.rs `write_object_nil`), so the
claim fails for it. -/
theorem C43_nil_false : ¬ CountsItsBytes Wr.objectNil := by
  intro h
  obtain ⟨bs, h1, h2⟩ := h (WBuffer.new 0) _ 0 rfl
    (show Wr.objectNil (WBuffer.new 0) = .ok (0, (WBuffer.new 0).app (beBytes 4 0)) from rfl)
  have h3 := congrArg List.length h1
  simp [WBuffer.app, beBytes_length, h2] at h3

end Verif
