import Verif.Lemmas.LongColumns
import Verif.Spec.LongColumns
import Verif.Props.Total
import Verif.Props.BasketRoom
/-
C69: how many values a column can have.
-/
namespace Verif

/-! ### Any column -/

/-- C69, the limit: however a column of entries of `w` bytes each is written, and whatever is done with the file
in between, less entries than fill 32767 baskets have been taken. -/
theorem C69_limit {env : Env} {tn : Str} {c : Column} {n w : Nat} {b : WBranch} {f : FileW}
    (hok : ∀ v ∈ c.vals, c.ty.Ok v) (hw : ∀ v ∈ c.vals, (entryBytes c.ty v).length = w) (h : Writing env tn c n b f) :
    n < 32767 * perBasket w := by
  obtain ⟨path, b0, l0, done, cur, h⟩ := h.state hok
  obtain ⟨h1, h2⟩ := h.count hw
  have h3 : done.length * perBasket w ≤ 32766 * perBasket w := Nat.mul_le_mul_right _ h.few
  omega

/-- C69, the limit is reached, and the next entry aborts: numbers or arrays of up to 90 MB. -/
theorem C69_abort {env : Env} {tn : Str} {c : Column} {n w : Nat} {b : WBranch} {f : FileW}
    (hok : ∀ v ∈ c.vals, c.ty.Ok v) (hv : c.ty.varies = false) (hw : ∀ v ∈ c.vals, (entryBytes c.ty v).length = w)
    (hsmall : w ≤ 90000000) (hname : c.name.length + tn.length ≤ 1000000) (hn : n + 1 = 32767 * perBasket w)
    (hmore : n < c.vals.length) (h : Writing env tn c n b f) : ∃ f', b.write tn f = (.error .panic, f') := by
  have hk : bkl c.name tn ≤ 100000000 := by
    have h1 := tstringSizeof_le c.name
    have h2 := tstringSizeof_le tn
    have h3 : tstringSizeof (b! "TBasket") = 8 := by decide
    have h4 : ¬ 1000000 < c.name.length + tn.length := by omega
    unfold bkl kl keyLenFor
    split <;> split <;> omega
  obtain ⟨path, b0, l0, done, cur, h⟩ := h.room (c := c) (n := n)
    ⟨hok, fun v hm => by rw [hw v hm, hv]; exact hsmall, (fun h => absurd h (by rw [hv]; decide)), fun _ => ⟨w, hw, by omega⟩⟩ hk
  exact h.overflow hok hv hw hsmall hk hn hmore

/-! ### Numbers -/

theorem number_entry {t : Ty} (h : t.isNumber = true) {v : t.Val} (hok : t.Ok v) :
    (entryBytes t v).length = t.numberBytes := by
  have e : entryBytes t v = marshalled t v := by
    cases t <;> first
      | rfl
      | cases h
  rw [e, marshalled_eq hok]
  cases t <;> first
    | exact beBytes_length _ _
    | cases h

theorem number_varies {t : Ty} (h : t.isNumber = true) : t.varies = false := by
  cases t <;> first
    | rfl
    | cases h

theorem number_supported {t : Ty} (h : t.isNumber = true) : t.isSupported = true := by
  cases t <;> first
    | rfl
    | cases h

theorem number_most (t : Ty) : t.most + 1 = 32767 * perBasket t.numberBytes ∧ t.numberBytes ≤ 8 ∧
    t.numberBytes * t.most ≤ 1073676289 := by
  have : ∀ w, w = 1 ∨ w = 2 ∨ w = 4 ∨ w = 8 → 32767 * (32767 / w) - 1 + 1 = 32767 * perBasket w ∧ w ≤ 8 ∧
      w * (32767 * (32767 / w) - 1) ≤ 1073676289 := by
    rintro w (rfl | rfl | rfl | rfl) <;> decide
  refine this _ ?_
  cases t <;> first
    | exact .inl rfl
    | exact .inr (.inl rfl)
    | exact .inr (.inr (.inl rfl))
    | exact .inr (.inr (.inr rfl))

theorem numbers_bytes {c : Column} (h : c.ty.isNumber = true) (hok : ∀ v ∈ c.vals, c.ty.Ok v) :
    c.bytes = c.ty.numberBytes * c.vals.length := by
  obtain ⟨t, nm, vs⟩ := c
  unfold Column.bytes
  dsimp only at *
  induction vs with
  | nil => rfl
  | cons v vs ih =>
    rw [List.map_cons, List.sum_cons, number_entry h (hok v (by simp)), ih fun v hv => hok v (by simp [hv]),
      List.length_cons, Nat.mul_succ]
    omega

section
variable {addr : Nat → Nat} {path : Str} {ids : Nat} {t : TreeIn} {c : Column}

/-- The tree can be stored. -/
theorem TreeIn.OneColumn.storable (h : t.OneColumn c) (hn : c.vals.length ≤ c.ty.most) : Storables [t] := by
  obtain ⟨m1, m2, m3⟩ := number_most c.ty
  have hb := numbers_bytes h.numbers h.values
  have hb' : c.bytes ≤ 1073676289 := by
    have := Nat.mul_le_mul_left c.ty.numberBytes hn
    omega
  refine ⟨fun x hx => ?_, by simp, ?_⟩
  · rw [List.mem_singleton.1 hx]
    refine ⟨h.text, h.short, h.noSlash, h.noSemicolon, fun x hx => ?_, h.memory, ?_⟩
    · rw [h.cols] at hx
      rw [List.mem_singleton.1 hx]
      refine ⟨number_supported h.numbers, h.colText, h.colShort, h.values, fun v hv => ?_, fun _ v hv => ?_⟩
      · rw [number_entry h.numbers (h.values v hv), number_varies h.numbers, if_neg (by decide)]
        omega
      · rw [number_entry h.numbers (h.values v hv)]
        omega
    · rw [h.cols]
      simpa using h.distinct
  · simp only [List.map_cons, List.map_nil, List.sum_cons, List.sum_nil]
    unfold TreeIn.cost
    rw [h.cols]
    simp only [List.map_cons, List.map_nil, List.sum_cons, List.sum_nil]
    unfold Column.cost
    rw [number_varies h.numbers, if_neg (by decide)]
    omega

/-- C69, for numbers: a column of up to `Ty.most` numbers (134180864 of type `f64`, 1073676288 of type `u8`) is
written and read back, all of it. -/
theorem C69_numbers_partial (ha : ∀ i j, addr i = addr j → i = j) (hmem : ∀ j, ids + 20000000 ≤ addr j)
    (htext : utf8 path = true) (hpath : path.length ≤ 478) (h : t.OneColumn c) (hn : c.vals.length ≤ c.ty.most)
    (dec : Decoders) (fuel : Nat) (hfuel : 3 ≤ fuel) :
    ∃ f' r td bs b, writeFile (bundledEnv addr) [t] (FileW.initial path ids) = (.ok (), f') ∧
      openFile dec fuel (image f'.trace) = .ok r ∧ r.getTree dec fuel t.name = .ok (td, bs, none) ∧
      td.entries = c.vals.length ∧ lookupBranch bs c.name = some b ∧
      ∀ top, b.asIter (r.reader dec) top (some c.ty.rdClassNames) c.ty.unmarshal = .ok c.vals := by
  obtain ⟨f', r, hw, ho, -, ht⟩ := C50_total ha hmem htext hpath (h.storable hn) dec fuel hfuel
  obtain ⟨td, bs, hg, -, he, -, hb⟩ := ht t (by simp)
  rw [h.cols] at he hb
  obtain ⟨b, hl, hi⟩ := hb (by simp) c (by simp) h.noBrackets.1 h.noBrackets.2
  refine ⟨f', r, td, bs, b, hw, ho, hg, ?_, hl, fun top => (hi top).1⟩
  rw [he]
  have h1 : longest [c] ≤ c.vals.length := longest_le.2 fun x hx => by rw [List.mem_singleton.1 hx]; exact Nat.le_refl _
  have h2 : c.vals.length ≤ longest [c] := longest_le.1 (Nat.le_refl _) c (by simp)
  omega

/-- C69, and with one number more the program aborts. -/
theorem C69_too_many (hpath : path.length ≤ 478) (h : t.OneColumn c) (hn : c.ty.most < c.vals.length) :
    ∃ f', writeFile (bundledEnv addr) [t] (FileW.initial path ids) = (.error .panic, f') := by
  obtain ⟨m1, m2, -⟩ := number_most c.ty
  obtain ⟨hcr, hb0⟩ := create_runs (path := path) ids (by omega)
  have hend0 : (createdFile path ids).header.end_ ≤ 2000 := by
    have := pathLen_short.1 hpath
    show dirPos path + 60 ≤ 2000
    unfold dirPos
    omega
  have hlim : dirPos path + 60 ≤ kStartBigFile := by
    have : dirPos path + 60 ≤ 2000 := hend0
    unfold kStartBigFile
    omega
  obtain ⟨b, f', h1, h2⟩ := tree_overflow (addr := addr) h.cols h.short h.colShort (number_supported h.numbers) h.values
    (number_varies h.numbers) (fun v hv => number_entry h.numbers (h.values v hv)) (by omega) (by omega)
    (Inv.created (path := path) (ids := ids) hlim) hb0 (by omega)
  refine ⟨f', ?_⟩
  unfold writeFile
  rw [Fs.bind_of_ok hcr]
  refine Fs.bind_of_error ?_
  unfold writeTrees
  rw [Fs.bind_of_ok (show Fs.lift (buildTree t.name t.callbacks t.cols) (createdFile path ids) =
    (.ok b, createdFile path ids) by rw [h1]; rfl)]
  exact Fs.bind_of_error h2

end

/-! ### The hypotheses can be met -/

/-- A tree of `n` zeros. -/
def zeros (n : Nat) : Column := ⟨.f64, b! "x", List.replicate n (0 : Nat)⟩

def zerosTree (n : Nat) : TreeIn := { name := b! "t", cols := [zeros n], places := demoPlaces }

theorem zeros_one (n : Nat) : (zerosTree n).OneColumn (zeros n) where
  cols := rfl
  text := (by decide : utf8 (b! "t") = true)
  short := (by decide : (b! "t").length ≤ 1000)
  noSlash := (by decide : (47 : Byte) ∉ b! "t")
  noSemicolon := (by decide : (59 : Byte) ∉ b! "t")
  memory := fun _ => rfl
  distinct := (by decide : ((demoPlaces 0).1 :: (demoPlaces 0).2).Nodup)
  numbers := rfl
  colText := (by decide : utf8 (b! "x") = true)
  colShort := (by decide : (b! "x").length ≤ 1000)
  noBrackets := (by decide : (91 : Byte) ∉ b! "x" ∧ (93 : Byte) ∉ b! "x")
  values := fun v hv => by
    have h : v ∈ List.replicate n (0 : Nat) := hv
    rw [(List.mem_replicate.1 h).2]
    show InU 8 0
    decide

theorem zeros_length (n : Nat) : (zeros n).vals.length = n := List.length_replicate

/-- 134180864 numbers are stored. -/
example (dec : Decoders) : ∃ f' r td bs b,
    writeFile (bundledEnv fun i => i + 20000001) [zerosTree 134180864] (FileW.initial (b! "d.root") 1) = (.ok (), f') ∧
      openFile dec 3 (image f'.trace) = .ok r ∧ r.getTree dec 3 (b! "t") = .ok (td, bs, none) ∧
      td.entries = 134180864 ∧ lookupBranch bs (b! "x") = some b ∧
      ∀ top, b.asIter (r.reader dec) top (some Ty.f64.rdClassNames) Ty.f64.unmarshal =
        .ok (List.replicate 134180864 (0 : Nat)) := by
  obtain ⟨f', r, td, bs, b, h⟩ := C69_numbers_partial (addr := fun i => i + 20000001) (path := b! "d.root") (ids := 1)
    (t := zerosTree 134180864) (fun _ _ h => by omega) (fun _ => by omega) (by decide) (by decide)
    (zeros_one 134180864) (by rw [zeros_length]; show _ ≤ Ty.most .f64; decide) dec 3 (Nat.le_refl _)
  rw [zeros_length] at h
  exact ⟨f', r, td, bs, b, h⟩

/-- C69 is false: a column of 134180865 numbers, about 1.07 GB, cannot be written. -/
theorem C69_false (addr : Nat → Nat) : ∃ t c f', t.OneColumn c ∧ c.vals.length = 134180865 ∧ c.bytes = 1073446920 ∧
    writeFile (bundledEnv addr) [t] (FileW.initial (b! "d.root") 1) = (.error .panic, f') := by
  obtain ⟨f', h⟩ := C69_too_many (addr := addr) (path := b! "d.root") (ids := 1) (by decide) (zeros_one 134180865)
    (by rw [zeros_length]; show Ty.most .f64 < _; decide)
  refine ⟨_, _, f', zeros_one 134180865, zeros_length _, ?_, h⟩
  rw [numbers_bytes rfl (zeros_one 134180865).values, zeros_length]
  rfl

theorem zeros_reached {path : Str} {f : FileW} (hs : Session demoTreeEnv path [] f) (hend : f.header.end_ ≤ 1000000)
    (n : Nat) : ∀ k, k ≤ n → k ≤ 134180864 → ∃ b g, Writing demoTreeEnv (b! "t") (zeros n) k b g ∧
      AtRoom demoTreeEnv (b! "t") path g k (zeros n) b ∧ Inv path g ∧ g.Below2GB ∧
      16 * g.header.end_ + ((zeros n).load (b.pending + 8 * (134180864 - k)) : Nat) + 1600000 ≤ 32000000000 := by
  have hkey : bkl (b! "x") (b! "t") ≤ 3000 := by decide
  have hw : ∀ v ∈ (zeros n).vals, (entryBytes (zeros n).ty v).length = 8 :=
    fun v hv => number_entry (t := .f64) rfl ((zeros_one n).values v hv)
  intro k
  induction k with
  | zero =>
    intro _ _
    obtain ⟨b, sis, hb⟩ := WBranch.new_runs (t := .f64) rfl (b! "x")
      ((zeros n).vals.map fun v => some (Ty.marshal .f64 v)) 0
    have hi := session_inv hs
    obtain ⟨h1, h2⟩ := (show IsNew (zeros n) b from ⟨sis, hb⟩).atRoom (env := demoTreeEnv) (tn := b! "t") hi
    refine ⟨b, f, .start hs hb, h1, hi, session_below hs, ?_⟩
    rw [h2]
    have : ∀ x, (zeros n).load x = 19 * x := fun x => if_neg (by show ¬ Ty.varies .f64 = true; decide)
    rw [this]
    omega
  | succ k ih =>
    intro hk hl
    obtain ⟨b, g, hwr, hat, hi, hb, hroom⟩ := ih (by omega) (by omega)
    have hfit : (zeros n).Fits (b! "t") (k + 1) := by
      refine ⟨⟨(zeros_one n).values, fun v hm => ?_, fun h => ?_, fun _ => ⟨8, hw, ?_⟩⟩, hkey⟩
      · rw [hw v hm]
        show 8 ≤ 90000000
        decide
      · exact absurd (show Ty.varies .f64 = true from h) (by decide)
      · have : perBasket 8 = 4095 := by decide
        rw [zeros_length, this]
        omega
    obtain ⟨b', m, g', h1, h2, h3, -, h4, -, -, h5⟩ := hat.write_before (B := 8 * (134180864 - k))
      (B' := 8 * (134180864 - (k + 1))) (fun v hv => by rw [hw v (List.mem_of_getElem? hv)]; omega) (by omega)
      hfit hi hb hroom
    obtain ⟨b'', m', g'', h1', h6⟩ := C23_short_entries_partial (zeros_one n).values hfit.moderate.entries (by
      show (b! "x").length + (b! "t").length ≤ 1000000
      decide) (fun h => absurd (show Ty.varies .f64 = true from h) (by decide)) (fun _ => ⟨8, hw, by
        have : perBasket 8 = 4095 := by decide
        rw [this]
        omega⟩) hwr
    rw [h1] at h1'
    cases h1'
    have hsome := h6.2 (by rw [zeros_length]; omega)
    cases m with
    | none => cases hsome
    | some x => exact ⟨b', g', .entry hwr h1 h2, h4, h3, h2, by omega⟩

/-- The limit can be reached, and then the next call of `write` aborts. -/
example : ∃ b f f', Writing demoTreeEnv (b! "t") (zeros 134180865) 134180864 b f ∧
    b.write (b! "t") f = (.error .panic, f') := by
  have hs : Session demoTreeEnv (b! "d.root") [] demoFile :=
    ⟨10, demoFile, ok_pair (by decide +kernel), below2GB_iff.1 (by decide +kernel), .nil⟩
  obtain ⟨b, f, h, -⟩ := zeros_reached hs (by decide +kernel) 134180865 134180864 (by omega) (by omega)
  obtain ⟨f', h'⟩ := C69_abort (zeros_one 134180865).values rfl
    (fun v hv => number_entry (t := .f64) rfl ((zeros_one 134180865).values v hv)) (by decide) (by
      show (b! "x").length + (b! "t").length ≤ 1000000
      decide) (by decide) (by rw [zeros_length]; omega) h
  exact ⟨b, f, f', h, h'⟩

end Verif
