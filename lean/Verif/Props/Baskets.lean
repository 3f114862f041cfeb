import Verif.Lemmas.BasketRead
import Verif.Spec.DemoTree
/-
C24 (the tables of a branch).
-/
namespace Verif

/-- C24: at every moment of writing a branch, its tables say where its baskets are and which entries each
of them holds, now and at any later time; the entries not mentioned are those of the basket being filled. -/
theorem C24_tables {env : Env} {tn : Str} {c : Column} {n : Nat} {b : WBranch} {f g : FileW}
    (hok : ∀ v ∈ c.vals, c.ty.Ok v) (h : Writing env tn c n b f) (hl : Later env f g) :
    n ≤ c.vals.length ∧ b.branch.data.entries = n ∧
      BasketTables tn (c.vals.take n) b.branch.data (image g.trace) ∧
      ∃ last, b.branch.data.basketEntry.getLast? = some last ∧
        ((b.basket = none ∧ n = 0) ∨ ∃ bk, b.basket = some bk ∧
          bk.wbuf.p = ((c.vals.take n).drop last.toNat).flatMap (entryBytes c.ty)) := by
  obtain ⟨path, b0, l0, done, cur, h⟩ := h.state hok
  obtain ⟨hi, ht, hbk, -⟩ := h.filling
  have hn : (done.map Done.es).flatten.length + cur.length = n := by
    have := congrArg List.length h.taken
    simp only [List.length_append, List.length_map, List.length_take] at this
    have := h.le
    omega
  refine ⟨h.le, ?_, ht.right hi hl h.taken, ((done.map Done.es).flatten.length : Int), ?_, ?_⟩
  · rw [ht.data, hn]
  · rw [ht.data]
    exact List.getLast?_concat ..
  · rcases hbk with ⟨h1, rfl, rfl⟩ | ⟨bk, h1, hc, -⟩
    · exact .inl ⟨h1, by rw [← hn]; rfl⟩
    · refine .inr ⟨bk, h1, ?_⟩
      rw [hc.bytes, List.flatMap_def, List.map_drop, ← h.taken, Int.toNat_natCast, List.drop_left]

/-- C24 at the end: the last flush leaves no entry out. -/
theorem C24_flushed {env : Env} {tn : Str} {c : Column} {n : Nat} {b b' : WBranch} {f f' g : FileW}
    (hok : ∀ v ∈ c.vals, c.ty.Ok v) (h : Writing env tn c n b f) (hf : b.flush f = (.ok b', f'))
    (hb : f'.Below2GB) (hl : Later env f' g) :
    b'.branch.data.entries = n ∧ b'.branch.data.basketEntry.getLast? = some (n : Int) ∧
      BasketTables tn (c.vals.take n) b'.branch.data (image g.trace) := by
  obtain ⟨path, b0, l0, done, cur, h⟩ := h.state hok
  obtain ⟨hi, -, -, d, ht, -, -, hv⟩ := h.flush hf hb.data
  refine ⟨by rw [ht.data], ?_, ht.right (cur := []) hi hl (by rw [List.append_nil]; exact hv)⟩
  have : ((done ++ [d]).map Done.es).flatten.length = n := by
    have := congrArg List.length hv
    rw [List.length_map, List.length_take] at this
    have := h.le
    omega
  rw [ht.data, this]
  exact List.getLast?_concat ..

/-! A column of two strings: after both are taken and the basket is flushed there is one basket. -/

/-- Two strings. -/
def smallCol : Column := ⟨.string, b! "s", [b! "ab", b! ""]⟩

/-- Its branch and the open file. -/
def smallStart : WBranch × FileW :=
  match WBranch.new smallCol.ty smallCol.name (smallCol.vals.map fun v => some (smallCol.ty.marshal v)) 0 with
  | .ok (b, _) => (b, demoFile)
  | .error _ => (⟨.mk {} none [], [], none⟩, demoFile)

/-- One call of `write`. -/
def writeStep (tn : Str) (s : WBranch × FileW) : WBranch × FileW :=
  match s.1.write tn s.2 with
  | (.ok (b, _), f) => (b, f)
  | (.error _, f) => (s.1, f)

/-- It takes an entry and the file stays small. -/
def writeGood (tn : Str) (s : WBranch × FileW) : Bool :=
  match s.1.write tn s.2 with
  | (.ok (_, some _), f) => below2GB f
  | _ => false

theorem Writing.step {env : Env} {tn : Str} {c : Column} {n : Nat} {s : WBranch × FileW}
    (h : Writing env tn c n s.1 s.2) (hg : writeGood tn s = true) :
    Writing env tn c (n + 1) (writeStep tn s).1 (writeStep tn s).2 := by
  unfold writeGood at hg
  unfold writeStep
  split at hg
  · next he => rw [he]; exact .entry h he (below2GB_iff.1 hg)
  · cases hg

theorem small_start : Writing demoTreeEnv (b! "t") smallCol 0 smallStart.1 smallStart.2 :=
  .start (path := b! "d.root") (ops := []) (iobits := 0) (sis := [])
    ⟨10, demoFile, ok_pair (by decide +kernel), below2GB_iff.1 (by decide +kernel), .nil⟩ rfl

example : ∃ b f b' f', Writing demoTreeEnv (b! "t") smallCol 2 b f ∧ b.flush f = (.ok b', f') ∧ f'.Below2GB ∧
    (∀ v ∈ smallCol.vals, smallCol.ty.Ok v) ∧ b'.branch.data.basketEntry = [0, 2] := by
  have h2 := (small_start.step (by decide +kernel)).step (by decide +kernel)
  obtain ⟨b', hf⟩ := ok_result (x := (writeStep (b! "t") (writeStep (b! "t") smallStart)).1.flush
    (writeStep (b! "t") (writeStep (b! "t") smallStart)).2) (by decide +kernel)
  have hb := below2GB_iff.1 (show below2GB ((writeStep (b! "t") (writeStep (b! "t") smallStart)).1.flush
    (writeStep (b! "t") (writeStep (b! "t") smallStart)).2).2 = true by decide +kernel)
  have hok : ∀ v ∈ smallCol.vals, smallCol.ty.Ok v := by decide
  refine ⟨_, _, b', _, h2, hf, hb, hok, ?_⟩
  have he : (match (writeStep (b! "t") (writeStep (b! "t") smallStart)).1.flush
    (writeStep (b! "t") (writeStep (b! "t") smallStart)).2 with
    | (.ok b, _) => b.branch.data.basketEntry
    | _ => []) = [0, 2] := by decide +kernel
  rw [hf] at he
  exact he

end Verif
