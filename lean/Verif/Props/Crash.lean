import Verif.Lemmas.Crash
import Verif.Props.Reopen
/-
C18 (a process that stops before close leaves no file that opens), C19 (what is on disk when `close`
has returned).
-/
namespace Verif

/-- C18, while the file is open: whatever the writes that reached the disk, the last one possibly in
part, opening what is there fails. -/
theorem C18_open {env : Env} {path : Str} {ops : List Op} {f : FileW} (h : Session env path ops f)
    (n k : Nat) (dec : Decoders) (fuel : Nat) (r : FileR) :
    openFile dec fuel (crashImage f.trace n k) ≠ .ok r := by
  obtain ⟨ids, f0, hc, hb, hr⟩ := h
  obtain ⟨rfl, hlim⟩ := create_ok hc hb.end_
  have hi := runs_inv (Inv.created (path := path) (ids := ids) hlim) hr
  obtain ⟨ws, t, p⟩ := hi.trace
  rw [t]
  exact crash_not_ok hlim (fun w hw => (p.mem hw).1) n k r

/-- C18, during `close`: as long as the record of the directory has not been written again (the first
four writes are those of `create`), opening what is on disk fails. -/
theorem C18_closing {env : Env} {path : Str} {ops : List Op} {f f' : FileW}
    (h : Session env path ops f) (hc : Closes env f f') (n k : Nat)
    (hn : ∀ m w, 4 ≤ m → m ≤ n → f'.trace[m]? = some w → (w.pos : Int) ≠ f.recordPos)
    (dec : Decoders) (fuel : Nat) (r : FileR) :
    openFile dec fuel (crashImage f'.trace n k) ≠ .ok r := by
  obtain ⟨ids, f0, hcr, hb, hr⟩ := h
  obtain ⟨rfl, hlim⟩ := create_ok hcr hb.end_
  have hi := runs_inv (Inv.created (path := path) (ids := ids) hlim) hr
  obtain ⟨s, i, buf, ca⟩ := hi.close hc
  obtain ⟨ws, t, p⟩ := hi.trace
  have pl := ca.placed hi
  have hdw := (dirWrite_eq hi).1
  have hrec : f.recordPos = dirPos path := by
    unfold FileW.recordPos; rw [hi.hdr]; rfl
  have e := ca.trace
  rw [t] at e
  -- all the writes up to the `n`-th are before the one of the directory
  have e' : f'.trace = (createdTrace path ++ (ws ++ (closingRecords f s i buf).1)) ++
      (dirWrite f :: ((closingRecords f s i buf).2 ++
        [⟨0, List.replicate 100 0⟩, ⟨0, f'.header.enc⟩])) := by rw [e]; simp
  have hlen : n < (createdTrace path ++ (ws ++ (closingRecords f s i buf).1)).length := by
    rcases Nat.lt_or_ge n (createdTrace path ++ (ws ++ (closingRecords f s i buf).1)).length with h | h
    · exact h
    · exfalso
      refine hn (createdTrace path ++ (ws ++ (closingRecords f s i buf).1)).length (dirWrite f) ?_ h ?_ ?_
      · rw [List.length_append]; exact Nat.le_add_right _ _
      · rw [e', List.getElem?_append_right (Nat.le_refl _), Nat.sub_self]; rfl
      · rw [hrec]; exact hdw
  have hcrash : crashImage f'.trace n k =
      crashImage (createdTrace path ++ (ws ++ (closingRecords f s i buf).1)) n k := by
    unfold crashImage
    rw [e', List.getElem?_append_left hlen, List.take_append_of_le_length (by omega)]
  rw [hcrash]
  have hlo := hi.lo
  refine crash_not_ok hlim (fun w hw => ?_) n k r
  rcases List.mem_append.1 hw with hw | hw
  · exact (p.mem hw).1
  · have := (pl.mem (List.mem_append_left _ hw)).1
    omega

/-- In the small session eight writes follow those of `create` before the record of the directory is
written again. -/
example (k : Nat) (dec : Decoders) (r : FileR) :
    openFile dec 3 (crashImage demoClosed.trace 11 k) ≠ .ok r := by
  refine C18_closing demo_session demo_closes 11 k (fun m w h4 hm hw => ?_) dec 3 r
  have h : (demoClosed.trace.drop 4).take 8 |>.all fun w => (w.pos : Int) ≠ demoOpen.recordPos := by
    decide +kernel
  have := List.all_eq_true.1 h w (List.mem_iff_getElem?.2 ⟨m - 4, by
    rw [List.getElem?_take, if_pos (by omega), List.getElem?_drop, show 4 + (m - 4) = m by omega]
    exact hw⟩)
  simpa using this

/-! ### After close -/

theorem zeros_not_root {dec : Decoders} {fuel : Nat} {img : List Byte} (hl : 76 ≤ img.length)
    (hz : Stored img 0 (List.replicate 100 0)) : openFile dec fuel img = .error .panic := by
  obtain ⟨t, ht⟩ := hz
  have e : readAt img 0 (64 + 12) = .ok (img.take 76) := by
    unfold readAt
    rw [if_neg (by decide), if_neg (by decide), if_pos (by show 0 + 76 ≤ _; omega)]
    rfl
  unfold openFile
  rw [Res.bind_ok e]
  have ht : List.replicate 100 0 ++ t = img := ht
  have : readWith FileHeader.unmarshal (img.take 76) = .error .panic := by
    rw [← ht, List.take_append_of_le_length (by simp), List.take_replicate]
    rfl
  rw [this]
  rfl

/-- C19 is false: when `close` has returned, the last write (the header) is still in the memory of the
process, for every session; another process that opens the file aborts, since the file starts with
100 zeros. -/
theorem C19_false {env : Env} {path : Str} {ops : List Op} {f f' : FileW}
    (h : Session env path ops f) (hc : Closes env f f') (dec : Decoders) (fuel : Nat) :
    openFile dec fuel (diskWhileOpen f'.trace) = .error .panic := by
  have hi := session_inv h
  obtain ⟨s, i, buf, ca⟩ := hi.close hc
  have hl := FileHeader.enc_length ca.range
  rw [ca.narrow] at hl
  have e : f'.trace = (f.trace ++ (closingRecords f s i buf).1 ++ [dirWrite f] ++
      (closingRecords f s i buf).2 ++ [⟨0, List.replicate 100 0⟩]) ++ [⟨0, f'.header.enc⟩] := by
    rw [ca.trace]; simp
  have hd : diskWhileOpen f'.trace = image (f.trace ++ (closingRecords f s i buf).1 ++ [dirWrite f] ++
      (closingRecords f s i buf).2 ++ [⟨0, List.replicate 100 0⟩]) := by
    rw [e]
    unfold diskWhileOpen
    rw [List.getLast?_concat, List.dropLast_concat]
    simp only [hl]
    rfl
  have hs : Stored (diskWhileOpen f'.trace) 0 (List.replicate 100 0) := by
    rw [hd]
    exact Stored.image (b := []) (w := ⟨0, List.replicate 100 0⟩) (by simp)
  exact zeros_not_root (by
    have := hs.le (by simp)
    simp at this
    omega) hs

/-- C19, what holds: once the `RootFile` is dropped, which empties the buffer, the file is complete. -/
theorem C19_dropped_partial {env : Env} {path : Str} {ids : Nat} {ops : List Op} {f0 f f' : FileW}
    (hw : Written env path ids ops f0 f f') (hh : Holds env path ops f0 f')
    (hfew : FewPerName (acceptedPuts env f0 ops)) (dec : Decoders) (fuel : Nat) (hfuel : 3 ≤ fuel) :
    ∃ r, openFile dec fuel (image f'.trace) = .ok r ∧
      r.keysName = (acceptedPuts env f0 ops).map Prod.fst ∧ r.sinfos.length = f'.sinfos.length := by
  obtain ⟨r, h1, h2, -⟩ := C15_reopen hw hh hfew dec fuel hfuel
  obtain ⟨-, -, -, -, s, i, buf, -, -, -, -, hop⟩ := hw.opened hh
  have := h1.symm.trans (hop dec fuel hfuel)
  injection this with this
  exact ⟨r, h1, h2, by rw [this]; simp⟩

example (dec : Decoders) : openFile dec 3 (diskWhileOpen demoClosed.trace) = .error .panic ∧
    ∃ r, openFile dec 3 (image demoClosed.trace) = .ok r ∧ r.keysName = [b! "o", b! "o"] := by
  obtain ⟨r, h, hk, -⟩ := C19_dropped_partial demo_written demo_holds demo_few dec 3 (Nat.le_refl _)
  exact ⟨C19_false demo_session demo_closes dec 3, r, h, hk.trans demo_accepted⟩

end Verif
