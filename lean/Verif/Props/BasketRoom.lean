import Verif.Lemmas.BasketRoom
import Verif.Props.Baskets
/-
C23 (writing never aborts): true of a column whose entries have at most 1001 bytes, false in general.
-/
namespace Verif

/-- C23, for texts and vectors of at most 1001 bytes (1 GB in all), and for numbers and arrays of any number of
bytes up to 90 MB: whatever has been written before and whatever else is done with the file, the next call of
`write` succeeds and takes an entry as long as there is one, unless the 32767th basket is full with it.
Missing: longer texts and vectors (the claim is then false), more baskets (false as well, see C69), larger
columns of texts. -/
theorem C23_short_entries_partial {env : Env} {tn : Str} {c : Column} {n : Nat} {b : WBranch} {f : FileW}
    (hok : ∀ v ∈ c.vals, c.ty.Ok v)
    (hs : ∀ v ∈ c.vals, (entryBytes c.ty v).length ≤ if c.ty.varies then 1001 else 90000000)
    (hname : c.name.length + tn.length ≤ 1000000) (htot : c.ty.varies = true → c.bytes ≤ 1000000000)
    (hfew : c.ty.varies = false → ∃ w, (∀ v ∈ c.vals, (entryBytes c.ty v).length = w) ∧ n + 1 < 32767 * perBasket w)
    (h : Writing env tn c n b f) :
    ∃ b' m f', b.write tn f = (.ok (b', m), f') ∧ (m.isSome ↔ n < c.vals.length) := by
  have hk : bkl c.name tn ≤ 100000000 := by
    have h1 := tstringSizeof_le c.name
    have h2 := tstringSizeof_le tn
    have h3 : tstringSizeof (b! "TBasket") = 8 := by decide
    have h4 : ¬ 1000000 < c.name.length + tn.length := by omega
    unfold bkl kl keyLenFor
    split <;> split <;> omega
  have hm : c.Moderate (n + 1) :=
    ⟨hok, hs, fun hv => by rw [List.length_flatMap]; exact htot hv, hfew⟩
  obtain ⟨path, b0, l0, done, cur, h⟩ := h.room (hm.mono (by omega)) hk
  obtain ⟨b', m, f', h1, h2, -⟩ := h.progress (hm.mono (by omega)) hk
  exact ⟨b', m, f', h1, h2⟩

/-- The limit is exact: a column of strings or vectors that starts with an entry of at least 1002 bytes and
goes on with a thousand small ones cannot be written; the writer aborts at the thousand-first entry. -/
theorem C23_long_entry {env : Env} {path tn : Str} {c : Column} {ops : List Op} {io : Nat} {b : WBranch}
    {sis : List StreamerInfo} {f : FileW} (hty : c.ty = .string ∨ ∃ e, c.ty = .vec e)
    (hok : ∀ v ∈ c.vals, c.ty.Ok v) (hfirst : ∀ v, c.vals[0]? = some v → 1002 ≤ (entryBytes c.ty v).length)
    (hlen : 1001 ≤ c.vals.length) (hsmall : (c.vals.flatMap (entryBytes c.ty)).length ≤ 16000)
    (hs : Session env path ops f)
    (hb : WBranch.new c.ty c.name (c.vals.map fun v => some (c.ty.marshal v)) io = .ok (b, sis)) :
    ∃ b', Writing env tn c 1000 b' f ∧ b'.write tn f = (.error .panic, f) := by
  have hvar : c.ty.varies = true := by
    rcases hty with h | ⟨e, h⟩ <;> rw [h] <;> rfl
  have hbel := session_below hs
  obtain ⟨-, hnone, -⟩ := WBranch.new_fresh hb
  obtain ⟨l0, hst⟩ := ColumnState.start (env := env) (tn := tn) (session_inv hs) hb
  have hfresh := hst.fresh
  rw [hvar] at hfresh
  have hfill := hst.filling
  rw [hvar] at hfill
  have step : ∀ n, n ≤ 1000 → ∃ b', Writing env tn c n b' f ∧
      Filling path tn true b.branch l0 f [] ((c.vals.take n).map (entryBytes c.ty)) b' ∧
      b'.items = (c.vals.drop n).map (fun v => some (c.ty.marshal v)) ∧
      ((n = 0 ∧ b'.basket = none) ∨ ∃ bk, b'.basket = some bk ∧ bk.basket.Tight) := by
    intro n
    induction n with
    | zero => exact fun _ => ⟨b, .start hs hb, hfill, hst.items, .inl ⟨rfl, hnone⟩⟩
    | succ n ih =>
      intro hn
      obtain ⟨b1, hw1, hf1, hit1, ht1⟩ := ih (by omega)
      have hlt : n < c.vals.length := by omega
      have hd : c.vals.drop n = c.vals[n] :: c.vals.drop (n + 1) := List.drop_eq_getElem_cons hlt
      have hv : c.ty.Ok c.vals[n] := hok _ (List.getElem_mem _)
      rw [hd, List.map_cons] at hit1
      obtain ⟨hne, he⟩ := hst.entry _ hv
      have htk : (c.vals.take (n + 1)).map (entryBytes c.ty) =
          (c.vals.take n).map (entryBytes c.ty) ++ [entryBytes c.ty c.vals[n]] := by
        rw [List.take_add_one, List.map_append, List.getElem?_eq_getElem hlt]
        rfl
      have hsz : ((c.vals.take n).map (entryBytes c.ty)).flatten.length + (entryBytes c.ty c.vals[n]).length ≤
          16000 := by
        have h1 := flatten_take_le (c.vals.map (entryBytes c.ty)) (n + 1)
        rw [← List.map_take, htk, ← List.flatMap_def] at h1
        simp only [List.flatten_append, List.flatten_cons, List.flatten_nil, List.append_nil,
          List.length_append] at h1
        omega
      obtain ⟨b2, m, bk, hw, hbk, ht2, hf2, hit2⟩ := Filling.tight hfresh hf1 (bs := marshalled c.ty c.vals[n])
        (by
          rcases ht1 with ⟨rfl, hx⟩ | ht1
          · exact .inl ⟨by rw [List.take_zero]; rfl, hx, by
              rw [he]; exact hfirst _ (List.getElem?_eq_getElem hlt)⟩
          · exact .inr ht1) hit1 (Ty.writes_marshal hv) hne (by rw [he]; exact hsz)
        (by rw [List.length_map, List.length_take]; omega)
      refine ⟨b2, .entry hw1 hw hbel, ?_, hit2, .inr ⟨bk, hbk, ht2⟩⟩
      rw [htk, ← he]
      exact hf2
  obtain ⟨b1, hw1, hf1, hit1, ht1⟩ := step 1000 (by omega)
  have hlt : 1000 < c.vals.length := by omega
  have hd : c.vals.drop 1000 = c.vals[1000] :: c.vals.drop 1001 := List.drop_eq_getElem_cons hlt
  rw [hd, List.map_cons] at hit1
  rcases ht1 with ⟨h, -⟩ | ⟨bk, hbk, ht⟩
  · cases h
  · exact ⟨b1, hw1, hf1.tight_aborts hbk ht hit1 (by rw [List.length_map, List.length_take]; omega)⟩

/-- One long string, then empty ones. -/
def longCol : Column := ⟨.string, b! "s", List.replicate 997 97 :: List.replicate 1000 []⟩

/-- C23 is false: a column of strings that the writer cannot write. -/
theorem C23_false : ∃ b f, Writing demoTreeEnv (b! "t") longCol 1000 b f ∧
    (∀ v ∈ longCol.vals, longCol.ty.Ok v) ∧ 1000 < longCol.vals.length ∧
    b.write (b! "t") f = (.error .panic, f) := by
  have hok : ∀ v ∈ longCol.vals, longCol.ty.Ok v := by
    intro v hv
    rcases List.mem_cons.1 hv with rfl | hv
    · show (List.replicate 997 (97 : UInt8)).length < 2 ^ 31 ∧ utf8 (List.replicate 997 97) = true
      decide +kernel
    · rw [(List.mem_replicate.1 hv).2]
      show ([] : Str).length < 2 ^ 31 ∧ utf8 [] = true
      decide
  have hlen : longCol.vals.length = 1001 := by
    show (List.replicate 997 (97 : UInt8) :: List.replicate 1000 []).length = 1001
    rw [List.length_cons, List.length_replicate]
  obtain ⟨b', h1, h2⟩ := C23_long_entry (env := demoTreeEnv) (path := b! "d.root") (tn := b! "t") (c := longCol)
    (ops := []) (io := 0) (f := demoFile) (.inl rfl) hok
    (by intro v hv; injection hv with hv; subst hv; decide +kernel) (by omega) (by decide +kernel)
    ⟨10, demoFile, ok_pair (by decide +kernel), below2GB_iff.1 (by decide +kernel), .nil⟩ rfl
  exact ⟨b', _, h1, hok, by omega, h2⟩

/-! The hypotheses of the partial claim hold for the two strings. -/

example : ∃ b f, Writing demoTreeEnv (b! "t") smallCol 1 b f ∧ (∀ v ∈ smallCol.vals, smallCol.ty.Ok v) ∧
    (∀ v ∈ smallCol.vals, (entryBytes smallCol.ty v).length ≤ if smallCol.ty.varies then 1001 else 90000000) ∧
    (smallCol.ty.varies = true → smallCol.bytes ≤ 1000000000) ∧ (smallCol.ty.varies = false → False) :=
  ⟨_, _, small_start.step (by decide +kernel), by decide, by decide +kernel, fun _ => by decide +kernel, by decide⟩

end Verif
