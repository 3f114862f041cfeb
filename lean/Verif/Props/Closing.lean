import Verif.Lemmas.Closing
import Verif.Spec.Closing
import Verif.Props.Crash
import Verif.Props.Feeds
/-
C74: a writer that stops leaves everything or nothing.
-/
namespace Verif

section
variable {env : Env} {path : Str} {ids : Nat} {ops : List Op} {f0 f f' : FileW}

/-- The writes of a closed file, and which of them is the one of the directory. -/
theorem ClosedAs.redirects {s : List StreamerInfo} {i : Nat} {buf : List Byte} (hi : Inv path f)
    (hc : ClosedAs env path f f' s i buf) :
    f'.trace.length = (f.trace ++ (closingRecords f s i buf).1).length + (1 + ((closingRecords f s i buf).2.length + 2)) ∧
    ∀ n, Redirects f f' n ↔ n + 1 = f'.trace.length ∨ n = (f.trace ++ (closingRecords f s i buf).1).length := by
  have hd := dirPos_ge path
  have hlo := hi.lo
  have hdw := (dirWrite_eq hi).1
  have pl := hc.placed hi
  obtain ⟨ws, t, p⟩ := hi.trace
  have hrec : f.recordPos = dirPos path := by
    unfold FileW.recordPos; rw [hi.hdr]; rfl
  have e : f'.trace = (f.trace ++ (closingRecords f s i buf).1) ++
      (dirWrite f :: ((closingRecords f s i buf).2 ++
        [⟨0, List.replicate 100 0⟩, ⟨0, f'.header.enc⟩])) := by rw [hc.trace]; simp
  have h4 : 4 ≤ (f.trace ++ (closingRecords f s i buf).1).length := by
    rw [t, List.append_assoc, List.length_append]; exact Nat.le_add_right _ _
  refine ⟨by rw [e]; simp; omega, fun n => ?_⟩
  constructor
  · rintro (h | ⟨h, w, h1, h2⟩)
    · exact Or.inl h
    · right
      rw [hrec] at h2
      rcases Nat.lt_trichotomy n (f.trace ++ (closingRecords f s i buf).1).length with hn | hn | hn
      · exfalso
        rw [e, List.getElem?_append_left hn, t, List.append_assoc,
          List.getElem?_append_right (by exact h)] at h1
        rcases List.mem_append.1 (List.mem_of_getElem? h1) with hw | hw
        · have := (p.mem hw).1; omega
        · have := (pl.mem (List.mem_append_left _ hw)).1; omega
      · exact hn
      · exfalso
        rw [e, List.getElem?_append_right (by omega)] at h1
        obtain ⟨m, hm⟩ : ∃ m, n - (f.trace ++ (closingRecords f s i buf).1).length = m + 1 :=
          ⟨n - (f.trace ++ (closingRecords f s i buf).1).length - 1, by omega⟩
        rw [hm, List.getElem?_cons_succ] at h1
        rcases List.mem_append.1 (List.mem_of_getElem? h1) with hw | hw
        · have := (pl.mem (List.mem_append_right _ hw)).1; omega
        · simp only [List.mem_cons, List.not_mem_nil, or_false] at hw
          rcases hw with rfl | rfl
          · have : ((0 : Nat) : Int) = dirPos path := h2
            omega
          · have : ((0 : Nat) : Int) = dirPos path := h2
            omega
  · rintro (h | h)
    · exact Or.inl h
    · subst h
      refine Or.inr ⟨h4, dirWrite f, ?_, by rw [hrec]; exact hdw⟩
      rw [e, List.getElem?_append_right (Nat.le_refl _), Nat.sub_self]; rfl

theorem crash_split {a b : List DiskWrite} {n k : Nat} (hn : a.length ≤ n) (hlt : n < (a ++ b).length) :
    ∃ w, b[n - a.length]? = some w ∧
      crashImage (a ++ b) n k = image (a ++ (b.take (n - a.length) ++ [{ w with data := w.data.take k }])) := by
  have h : n - a.length < b.length := by rw [List.length_append] at hlt; omega
  refine ⟨b[n - a.length], List.getElem?_eq_getElem h, ?_⟩
  unfold crashImage
  rw [List.getElem?_append_right hn, List.getElem?_eq_getElem h]
  dsimp only
  rw [List.take_append, List.take_of_length_le hn, ← List.append_assoc, image_append (_ ++ _)]
  rfl

/-- What is on disk while the last records are being written. -/
theorem ClosedAs.window {s : List StreamerInfo} {i : Nat} {buf : List Byte} (hi : Inv path f)
    (hc : ClosedAs env path f f' s i buf) {n k : Nat} (h1 : KeysListed f f' n) (h2 : n + 2 < f'.trace.length) :
    ∃ vs, crashImage f'.trace n k = image (windowTrace f s i buf vs) ∧
      ∀ v ∈ vs, (closing1 f).header.end_ ≤ v.pos := by
  obtain ⟨hlen, hred⟩ := hc.redirects hi
  have hm : (f.trace ++ (closingRecords f s i buf).1).length < n := by
    obtain ⟨m, w, h4, hmn, hw, hp⟩ := h1
    rcases (hred m).1 (Or.inr ⟨h4, w, hw, hp⟩) with h | h
    · omega
    · omega
  have e : f'.trace = (f.trace ++ (closingRecords f s i buf).1 ++ [dirWrite f]) ++
      ((closingRecords f s i buf).2 ++ [⟨0, List.replicate 100 0⟩, ⟨0, f'.header.enc⟩]) := by rw [hc.trace]; simp
  have hpl : ∀ v ∈ (closingRecords f s i buf).2, (closing1 f).header.end_ ≤ v.pos := by
    intro v hv
    have h0 := hc.ends hi
    have e2 := hc.end2
    have k2 : 26 ≤ infoKeyLen := (keyLenFor_ge _ _ _ false false).1
    have hs : (infoKey (closing1 f) buf).seekKey = (closing1 f).header.end_ := rfl
    have hl : (infoKey (closing1 f) buf).keyLen = infoKeyLen := rfl
    have hs' : (freeKey (closing2 f s i buf)).seekKey = (closing2 f s i buf).header.end_ := rfl
    have hl' : 26 ≤ (freeKey (closing2 f s i buf)).keyLen := (keyLenFor_ge _ _ _ false false).1
    rcases List.mem_append.1 hv with hv | hv
    · unfold Key.twoWrites at hv
      simp only [List.mem_cons, List.not_mem_nil, or_false] at hv
      rcases hv with rfl | rfl
      · show _ ≤ (((infoKey (closing1 f) buf).seekKey.toNat : Nat) : Int)
        omega
      · show _ ≤ ((((infoKey (closing1 f) buf).seekKey + (infoKey (closing1 f) buf).keyLen).toNat : Nat) : Int)
        omega
    · unfold Key.twoWrites at hv
      simp only [List.mem_cons, List.not_mem_nil, or_false] at hv
      rcases hv with rfl | rfl
      · show _ ≤ (((freeKey (closing2 f s i buf)).seekKey.toNat : Nat) : Int)
        omega
      · show _ ≤ ((((freeKey (closing2 f s i buf)).seekKey + (freeKey (closing2 f s i buf)).keyLen).toNat : Nat) : Int)
        omega
  have hA : (f.trace ++ (closingRecords f s i buf).1 ++ [dirWrite f]).length =
      (f.trace ++ (closingRecords f s i buf).1).length + 1 := by rw [List.length_append]; rfl
  obtain ⟨w, hw, hcr⟩ := crash_split (k := k) (a := f.trace ++ (closingRecords f s i buf).1 ++ [dirWrite f])
    (b := (closingRecords f s i buf).2 ++ [⟨0, List.replicate 100 0⟩, ⟨0, f'.header.enc⟩]) (n := n)
    (by omega) (by rw [← e]; omega)
  rw [← e] at hcr
  have hlt : n - (f.trace ++ (closingRecords f s i buf).1 ++ [dirWrite f]).length < (closingRecords f s i buf).2.length := by
    omega
  rw [List.getElem?_append_left hlt] at hw
  rw [List.take_append_of_le_length (Nat.le_of_lt hlt)] at hcr
  refine ⟨_, hcr, fun v hv => ?_⟩
  rcases List.mem_append.1 hv with hv | hv
  · exact hpl v (List.mem_of_mem_take hv)
  · rw [List.mem_singleton.1 hv]
    exact hpl w (List.mem_of_getElem? hw)

/-- The objects that were put do not claim to be baskets. -/
theorem keys_notBaskets {env : Env} {path : Str} {ops : List Op} {f0 f : FileW} (hi : Inv path f0)
    (h0 : f0.dir.keys = []) (h : Runs env f0 ops f)
    (hs : ∀ p ∈ acceptedPuts env f0 ops, p.2.cls ≠ b! "TBasket") : ∀ k ∈ f.dir.keys, k.cls ≠ b! "TBasket" := by
  intro k hk
  have h1 := List.mem_map_of_mem (f := fun k : Key => (k.name, k.cls, k.title)) hk
  rw [keys_accepted hi h0 h] at h1
  obtain ⟨p, hp, e⟩ := List.mem_map.1 h1
  injection e with e1 e2
  injection e2 with e2 e3
  rw [← e2]
  exact hs p hp

theorem Inv.load_kept (hi : Inv path f) {img : List Byte} (hk : Kept path f img) {k : Key} (hm : k ∈ f.dir.keys)
    (dec : Decoders) : k.listed.load dec img = .ok k.buffer := by
  have hk' := hi.keys k hm
  have hdp := dirPos_ge path
  have h26 : 26 ≤ kl k.name k.title k.cls := (keyLenFor_ge _ _ _ false false).1
  have hkl := hk'.lo
  have hkey : k.keyLen = kl k.name k.title k.cls := by rw [hk'.form]; rfl
  have hnb : k.nBytes = kl k.name k.title k.cls + k.buffer.length := by rw [hk'.form]; rfl
  have hhi := hk'.hi
  have hend : f.header.end_ ≤ 2000000000 := hi.good.hi
  have hs := hk _ (hk'.written ⟨(k.seekKey + k.keyLen).toNat, k.buffer⟩ (List.mem_cons_of_mem _ (List.mem_singleton.2 rfl)))
    (by show _ ≤ (((k.seekKey + k.keyLen).toNat : Nat) : Int); omega)
  exact Key.load_plain (k := k) (v := packedNow) (by rw [hk'.form]; rfl) (by rw [hk'.form]; rfl) (by omega) (by omega)
    (by omega) (by omega) hs

theorem entries_kept (hi0 : Inv path f0) (h0 : f0.dir.keys = []) (hr : Runs env f0 ops f) (hi : Inv path f) {r : FileR}
    (hk : r.dir.keys = f.dir.keys.map Key.listed) (hkept : Kept path f r.img) (dec : Decoders) :
    Pairs (EntryOf dec r) (acceptedPuts env f0 ops) r.dir.keys := by
  rw [hk]
  refine (runs_made hi0 h0 hr).map_right fun p k hk ⟨e1, e2, e3, n, w, e4, e5⟩ => ⟨e1, ?_, e3, n, w, e4, ?_⟩
  · show shownClass k.cls = _; rw [e2]
  · rw [← e5]
    exact hi.load_kept hkept hk dec

/-- C74, everything: once the record of the directory is written again, and until the header is, what is on
disk (the last write possibly in part) opens, and lists all objects that were put, each with its name, class
and title and with its bytes behind it.  There are no class records and no list of free bytes yet. -/
theorem C74_everything (hw : Written env path ids ops f0 f f') (hh : Holds env path ops f0 f')
    (hno : ∀ p ∈ acceptedPuts env f0 ops, p.2.cls ≠ b! "TBasket") {n k : Nat} (h1 : KeysListed f f' n)
    (h2 : n + 2 < f'.trace.length) (dec : Decoders) (fuel : Nat) :
    ∃ r, openFile dec fuel (crashImage f'.trace n k) = .ok r ∧
      r.keysName = (acceptedPuts env f0 ops).map Prod.fst ∧
      Pairs (EntryOf dec r) (acceptedPuts env f0 ops) r.dir.keys ∧ r.sinfos = [] ∧ r.spans = [] := by
  obtain ⟨hi0, hk0, hi, hfit, s, i, buf, hc, hko, es, ei, hop⟩ := hw.opened hh
  obtain ⟨vs, e, hvs⟩ := hc.window hi (k := k) h1 h2
  have hopen := hc.open_window hi hw.close.2.end_ hh.text (pathLen_short.1 hh.short) hfit
    hvs (window_long hi hc (keys_notBaskets hi0 hk0 hw.runs hno) hvs) dec fuel
  rw [← e] at hopen
  refine ⟨_, hopen, ?_, entries_kept hi0 hk0 hw.runs hi rfl ?_ dec, rfl, rfl⟩
  · show (f.dir.keys.map Key.listed).map Key.name = _
    rw [List.map_map, ← keys_names hi0 hk0 hw.runs]
    rfl
  · intro w hw' hp
    show Stored (crashImage f'.trace n k) w.pos w.data
    rw [e]
    exact window_body hi hc hvs hw' hp

theorem zero_not_root {dec : Decoders} {fuel : Nat} {img : List Byte} (hz : img[0]? = some 0) (r : FileR) :
    openFile dec fuel img ≠ .ok r := by
  intro h
  obtain ⟨-, h1, -⟩ := open_fields h
  cases img with
  | nil => cases hz
  | cons x xs =>
    cases hz
    have := congrArg List.head? h1
    cases this

theorem crash_next {ws : List DiskWrite} {n : Nat} {w : DiskWrite} (h : ws[n]? = some w) :
    crashImage ws (n + 1) 0 = crashImage ws n w.data.length := by
  have hz : ∀ img (v : DiskWrite), writeAt img { v with data := v.data.take 0 } = img := fun img v => by
    unfold writeAt
    rw [List.take_zero]
    rfl
  have hlt := (List.getElem?_eq_some_iff.1 h).1
  have e : ws.take (n + 1) = ws.take n ++ [w] := by
    rw [List.take_add_one, h]; rfl
  have e2 : crashImage ws (n + 1) 0 = image (ws.take (n + 1)) := by
    unfold crashImage
    split
    · rfl
    · exact hz _ _
  rw [e2, e, image_append]
  unfold crashImage
  rw [h]
  show _ = writeAt _ ⟨w.pos, w.data.take w.data.length⟩
  rw [List.take_length]
  rfl

/-- C74: whatever writes have reached the disk, the last one possibly in part, opening what is there fails or
gives all objects that were put, each with its bytes; unless the write that is in part is the one of the record
of the directory by `close`, or of the last header. -/
theorem C74_all_or_nothing (hw : Written env path ids ops f0 f f') (hh : Holds env path ops f0 f') {n k : Nat}
    (hn : k = 0 ∨ ¬ Redirects f f' n)
    (dec : Decoders) (fuel : Nat) (hfuel : 3 ≤ fuel) :
    (∀ r, openFile dec fuel (crashImage f'.trace n k) ≠ .ok r) ∨
    ∃ r, openFile dec fuel (crashImage f'.trace n k) = .ok r ∧
      r.keysName = (acceptedPuts env f0 ops).map Prod.fst ∧
      Pairs (EntryOf dec r) (acceptedPuts env f0 ops) r.dir.keys := by
  obtain ⟨hi0, hk0, hi, hfit, s, i, buf, hc, hko, es, ei, hop⟩ := hw.opened hh
  obtain ⟨hlen, hred⟩ := hc.redirects hi
  have hstart : Session env path ops f := ⟨ids, f0, hw.create, hw.small, hw.runs⟩
  have hrest : (closingRecords f s i buf).2.length = 4 := rfl
  rw [hrest] at hlen
  have e : f'.trace = (f.trace ++ (closingRecords f s i buf).1 ++ [dirWrite f] ++ (closingRecords f s i buf).2) ++
      [⟨0, List.replicate 100 0⟩, ⟨0, f'.header.enc⟩] := by rw [hc.trace]
  have hA4 : 4 ≤ (f.trace ++ (closingRecords f s i buf).1).length := by
    obtain ⟨ws, t, p⟩ := hi.trace
    rw [t, List.append_assoc, List.length_append]; exact Nat.le_add_right _ _
  have hB : (f.trace ++ (closingRecords f s i buf).1 ++ [dirWrite f] ++ (closingRecords f s i buf).2).length =
      (f.trace ++ (closingRecords f s i buf).1).length + 5 := by
    simp only [List.length_append, hrest, List.length_cons, List.length_nil]
  -- the zeros
  have hzero : ∀ k, 0 < k → ∀ r, openFile dec fuel (crashImage f'.trace (f'.trace.length - 2) k) ≠ .ok r := by
    intro k hk r
    obtain ⟨w, hw1, hcr⟩ := crash_split (k := k)
      (a := f.trace ++ (closingRecords f s i buf).1 ++ [dirWrite f] ++ (closingRecords f s i buf).2)
      (b := [⟨0, List.replicate 100 0⟩, ⟨0, f'.header.enc⟩]) (n := f'.trace.length - 2)
      (by omega) (by rw [← e]; omega)
    rw [← e] at hcr
    have h0 : f'.trace.length - 2 - (f.trace ++ (closingRecords f s i buf).1 ++ [dirWrite f] ++
        (closingRecords f s i buf).2).length = 0 := by omega
    rw [h0] at hw1 hcr
    cases hw1
    rw [hcr]
    refine zero_not_root ?_ r
    have hst := Stored.image (a := f.trace ++ (closingRecords f s i buf).1 ++ [dirWrite f] ++ (closingRecords f s i buf).2)
      (w := ⟨0, (List.replicate 100 (0 : Byte)).take k⟩) (b := []) (by simp)
    have := stored_iff.1 hst 0 (by simp; omega)
    rw [show (⟨0, (List.replicate 100 (0 : Byte)).take k⟩ : DiskWrite).pos + 0 = 0 from rfl] at this
    refine this.trans ?_
    show ((List.replicate 100 (0 : Byte)).take k)[0]? = some 0
    rw [List.getElem?_take, if_pos hk]
    rfl
  have hearly : ∀ n k, n < (f.trace ++ (closingRecords f s i buf).1).length → ∀ r,
      openFile dec fuel (crashImage f'.trace n k) ≠ .ok r := by
    intro n k hlt r
    refine C18_closing hstart hw.close n k (fun m w h4 hm hw' hp => ?_) dec fuel r
    rcases (hred m).1 (Or.inr ⟨h4, w, hw', hp⟩) with h | h <;> omega
  have hlate : ∀ n k, (f.trace ++ (closingRecords f s i buf).1).length < n → n + 2 < f'.trace.length →
      (∀ r, openFile dec fuel (crashImage f'.trace n k) ≠ .ok r) ∨
      ∃ r, openFile dec fuel (crashImage f'.trace n k) = .ok r ∧
      r.keysName = (acceptedPuts env f0 ops).map Prod.fst ∧
      Pairs (EntryOf dec r) (acceptedPuts env f0 ops) r.dir.keys := by
    intro n k h1 h2
    have hl : KeysListed f f' n := by
      rcases (hred _).2 (Or.inr rfl) with h | ⟨h, w, hw1, hw2⟩
      · omega
      · exact ⟨_, w, h, h1, hw1, hw2⟩
    obtain ⟨vs, e, hvs⟩ := hc.window hi (k := k) hl h2
    rcases Int.lt_or_le ((image (windowTrace f s i buf vs)).length : Int) (closing1 f).header.end_ with hshort | hlong
    · left
      rw [e]
      exact hc.window_short hi hw.close.2.end_ hh.text (pathLen_short.1 hh.short) hvs hshort dec fuel
    · right
      have hopen := hc.open_window hi hw.close.2.end_ hh.text (pathLen_short.1 hh.short) hfit hvs hlong dec fuel
      rw [← e] at hopen
      refine ⟨_, hopen, ?_, entries_kept hi0 hk0 hw.runs hi rfl ?_ dec⟩
      · show (f.dir.keys.map Key.listed).map Key.name = _
        rw [List.map_map, ← keys_names hi0 hk0 hw.runs]
        rfl
      · intro w hw' hp
        show Stored (crashImage f'.trace n k) w.pos w.data
        rw [e]
        exact window_body hi hc hvs hw' hp
  have hprev : ∀ m, m < f'.trace.length → ∃ j, crashImage f'.trace (m + 1) 0 = crashImage f'.trace m j ∧
      (∀ w, f'.trace[m]? = some w → j = w.data.length) := fun m hm =>
    ⟨_, crash_next (List.getElem?_eq_getElem hm), fun w hw1 => by
      rw [List.getElem?_eq_getElem hm] at hw1
      cases hw1
      rfl⟩
  rcases Nat.lt_trichotomy n (f.trace ++ (closingRecords f s i buf).1).length with h | h | h
  · exact Or.inl (hearly n k h)
  · -- in front of the record of the directory
    have hk : k = 0 := hn.resolve_right fun hx => hx ((hred n).2 (Or.inr h))
    subst hk
    obtain ⟨j, hj, -⟩ := hprev (n - 1) (by omega)
    rw [show n - 1 + 1 = n by omega] at hj
    rw [hj]
    exact Or.inl (hearly _ _ (by omega))
  · rcases Nat.lt_or_ge (n + 2) f'.trace.length with h2 | h2
    · exact hlate n k h h2
    · rcases Nat.lt_or_ge n f'.trace.length with h3 | h3
      · rcases Nat.eq_zero_or_pos k with hk | hk
        · subst hk
          obtain ⟨j, hj, hjw⟩ := hprev (n - 1) (by omega)
          rw [show n - 1 + 1 = n by omega] at hj
          rw [hj]
          rcases Nat.lt_or_ge (n - 1 + 2) f'.trace.length with h4 | h4
          · exact hlate _ _ (by omega) h4
          · -- the zeros are there, the header is not
            have h5 : n - 1 = f'.trace.length - 2 := by omega
            have hw1 : f'.trace[n - 1]? = some ⟨0, List.replicate 100 0⟩ := by
              have h6 : f'.trace.length - 2 = (f.trace ++ (closingRecords f s i buf).1 ++ [dirWrite f] ++
                  (closingRecords f s i buf).2).length := by omega
              rw [h5, h6, e, List.getElem?_append_right (Nat.le_refl _), Nat.sub_self]
              rfl
            have := hjw _ hw1
            rw [h5]
            exact Or.inl (hzero j (by rw [this]; simp))
        · rcases Nat.lt_or_ge (n + 1) f'.trace.length with h4 | h4
          · rw [show n = f'.trace.length - 2 by omega]
            exact Or.inl (hzero k hk)
          · exact absurd ((hred n).2 (Or.inl (by omega))) (hn.resolve_left (by omega))
      · -- everything is there
        right
        have ei' : crashImage f'.trace n k = image f'.trace := by
          unfold crashImage
          rw [List.getElem?_eq_none h3, List.take_of_length_le h3]
        rw [ei']
        refine ⟨_, hop dec fuel hfuel, ?_, entries_kept hi0 hk0 hw.runs hi rfl ?_ dec⟩
        · show (f.dir.keys.map Key.listed).map Key.name = _
          rw [List.map_map, ← keys_names hi0 hk0 hw.runs]
          rfl
        · exact (Later.close .nil hw.close).kept hi

end

/-! ### Trees -/

theorem chooseKey_mem {name : Str} {keys : List Key} {k : Key} (h : chooseKey name keys = .ok k) : k ∈ keys := by
  have hf : ∀ {l : List Key}, keys.filter (fun k => k.name = name) = l → ∀ x ∈ l, x ∈ keys := by
    rintro l rfl x hx
    exact (List.mem_filter.1 hx).1
  unfold chooseKey at h
  split at h
  · cases h
  · next e => cases h; exact hf e _ (List.mem_singleton.2 rfl)
  · next e =>
    split at h
    · next hl =>
      cases h
      exact hf rfl _ (List.mem_mergeSort.1 (List.mem_of_getLast? hl))
    · cases h

/-- Two files with the same keys, and the same bytes behind them, give the same objects. -/
theorem getObject_same {dec : Decoders} {fuel : Nat} {r r' : FileR} {name : Str} (hk : r.dir.keys = r'.dir.keys)
    (hl : ∀ k ∈ r.dir.keys, k.load dec r.img = k.load dec r'.img) :
    r.getObject dec fuel name = r'.getObject dec fuel name := by
  have hf : r.findKey name = r'.findKey name := by
    unfold FileR.findKey
    rw [hk]
  unfold FileR.getObject
  rw [← hf]
  cases h : r.findKey name with
  | error e => rfl
  | ok k =>
    have hm : k ∈ r.dir.keys := by
      unfold FileR.findKey at h
      cases hd : decodeNameCycle name with
      | error e => rw [hd] at h; cases h
      | ok n => rw [hd] at h; exact chooseKey_mem h
    show k.object dec fuel r.img = k.object dec fuel r'.img
    unfold Key.object
    rw [hl k hm]

section
variable {env : Env} {path tn : Str} {ids : Nat} {before after : List Op} {cb : Nat} {cols : List Column}
  {places : Places} {f0 f1 f2 f f' : FileW}

/-- C74, trees: in the same moments of `close` a tree that was written is found, with all its columns and their
values, though there are no class records yet. -/
theorem C74_trees (hw : TreeWritten env path ids before after tn cb cols places f0 f1 f2 f f')
    (hh : TreeHolds env path before after tn cols places f0 f2 f')
    (hno : ∀ p ∈ acceptedPuts env f0 before ++ acceptedPuts env f2 after, p.2.cls ≠ b! "TBasket")
    (hnd : (cols.map fun c => c.name).Nodup) {n k : Nat} (h1 : KeysListed f f' n) (h2 : n + 2 < f'.trace.length)
    (dec : Decoders) (fuel : Nat) (hfuel : 3 ≤ fuel) :
    ∃ (r : FileR) (td : TreeData) (bs : List Branch), openFile dec fuel (crashImage f'.trace n k) = .ok r ∧
      r.getTree dec fuel tn = .ok (td, bs, none) ∧ td.named.name = tn ∧ td.entries = longest cols ∧
      bs.map (fun b => (b.name, b.data.entries)) = cols.map (fun c => (c.name, (c.vals.length : Int))) ∧
      ∀ c ∈ cols, (91 : Byte) ∉ c.name → (93 : Byte) ∉ c.name → ∃ b, lookupBranch bs c.name = some b ∧
        ∀ top, b.asIter (r.reader dec) top (some c.ty.rdClassNames) c.ty.unmarshal = .ok c.vals ∧
          ∀ t, t ≠ c.ty → b.asIter (r.reader dec) top (some t.rdClassNames) t.unmarshal =
            .error (.err .typeMismatch) := by
  obtain ⟨t, ops, g, g', sis, r0, hs, hr0, hr0i, hget, -⟩ := tree_found hw hh dec fuel hfuel
  have hwr := hs.written hw
  have hho := hs.holds hw hh
  have hacc := hs.accepted hw
  obtain ⟨hi0, hk0, hi, hfit, s, i, buf, hc, -, -, -, hop⟩ := hwr.opened hho
  have hr := hr0.symm.trans (hop dec fuel hfuel)
  injection hr with hr
  obtain ⟨vs, e, hvs⟩ := hc.window hi (k := k) h1 h2
  have hnob : ∀ p ∈ acceptedPuts env f0 (treeOps before ops after tn (t.putObj places) sis), p.2.cls ≠ b! "TBasket" := by
    rw [hacc]
    intro p hp
    rcases List.mem_append.1 hp with hp | hp
    · exact hno p (List.mem_append_left _ hp)
    · rcases List.mem_cons.1 hp with rfl | hp
      · show b! "TTree" ≠ b! "TBasket"
        decide
      · exact hno p (List.mem_append_right _ hp)
  have hopen := hc.open_window hi hw.close.2.end_ hh.text (pathLen_short.1 hh.short) hfit
    hvs (window_long hi hc (keys_notBaskets hi0 hk0 hwr.runs hnob) hvs) dec fuel
  rw [← e] at hopen
  have hkeptW : Kept path f (crashImage f'.trace n k) := by
    rw [e]
    exact fun w hw' hp => window_body hi hc hvs hw' hp
  have hkeptF : Kept path f (image f'.trace) := (Later.close .nil hw.close).kept hi
  have hkeptg : Kept path g (crashImage f'.trace n k) := by
    intro w hw' hp
    refine hkeptW w ?_ hp
    obtain ⟨ws, ht, -⟩ := (Later.runs (hs.tail hw)).writes hs.inv
    rw [ht]
    exact List.mem_append_left _ hw'
  generalize hR : (⟨createdHeader path, [], [], { (closedDir f).afterRead packedNow packedNow with
      className := b! "TFile", name := path, keys := f.dir.keys.map Key.listed }, crashImage f'.trace n k⟩ : FileR) = r
  have hopen : openFile dec fuel (crashImage f'.trace n k) = .ok r := by rw [hopen, ← hR]
  have hgetW : r.getTree dec fuel tn = .ok (t.data.expected,
        t.branches.map fun b => b.branch.expected b.branch.data.writeBasket.toNat, none) := by
    rw [← hget]
    unfold FileR.getTree
    rw [getObject_same (r := r) (r' := r0)]
    · rw [← hR, hr]
    · intro k0 hk0'
      rw [← hR] at hk0' ⊢
      rw [hr]
      obtain ⟨k1, hk1, rfl⟩ := List.mem_map.1 hk0'
      exact (hi.load_kept hkeptW hk1 dec).trans (hi.load_kept hkeptF hk1 dec).symm
  obtain ⟨tot, ⟨-, htot⟩, hd⟩ := hs.data
  have hread : ∀ (i : Nat) (c : Column) (b : WBranch), cols[i]? = some c → t.branches[i]? = some b →
      let b' := b.branch.expected b.branch.data.writeBasket.toNat
      b'.name = c.name ∧ b'.branches = [] ∧ b'.data.entries = c.vals.length ∧
        b'.getBasket (r.reader dec) c.ty.unmarshal = .ok c.vals ∧
        ((91 : Byte) ∉ c.name → (93 : Byte) ∉ c.name → ∀ top, ∃ n ∈ c.ty.rdClassNames,
          b'.itemTypeName (r.reader dec) top = .ok n ∧ (c.ty = .string → n = b! "char*")) ∧ c.MadeAs b' := by
    intro i c b hc' hb
    refine (hs.branches.get hc' hb).read (hh.columns c (List.mem_of_getElem? hc')) hh.treeText ?_ ?_
    · rw [← hR]; exact hkeptg
    · intro e he cn hcn si hsi
      rw [← hR] at hsi
      cases hsi
  have hlen : cols.length = t.branches.length := hs.branches.length
  have hlist : ∀ {β} (p : Branch → β) (q : Column → β), (∀ (i : Nat) (c : Column) (b : WBranch), cols[i]? = some c →
      t.branches[i]? = some b → p (b.branch.expected b.branch.data.writeBasket.toNat) = q c) →
      (t.branches.map fun b => b.branch.expected b.branch.data.writeBasket.toNat).map p = cols.map q := by
    intro β p q h
    refine List.ext_getElem? fun i => ?_
    rw [List.map_map, List.getElem?_map, List.getElem?_map]
    rcases Nat.lt_or_ge i cols.length with hi | hi
    · rw [List.getElem?_eq_getElem hi, List.getElem?_eq_getElem (hlen ▸ hi)]
      exact congrArg some (h i _ _ (List.getElem?_eq_getElem hi) (List.getElem?_eq_getElem (hlen ▸ hi)))
    · rw [List.getElem?_eq_none hi, List.getElem?_eq_none (hlen ▸ hi)]
      rfl
  refine ⟨r, _, _, hopen, hgetW, ?_, ?_, ?_, fun c hc' hl hr' => ?_⟩
  · show t.data.named.name = _
    rw [hd]; rfl
  · show t.data.entries = _
    rw [hd]
  · exact hlist _ _ fun i c b hc' hb => by
      obtain ⟨a1, -, a3, -⟩ := hread i c b hc' hb
      rw [a1, a3]
  · obtain ⟨i, hi', rfl⟩ := List.getElem_of_mem hc'
    obtain ⟨e1, -, -, e4, e5, -⟩ := hread i _ _ (List.getElem?_eq_getElem hi') (List.getElem?_eq_getElem (hlen ▸ hi'))
    refine ⟨(t.branches[i]'(hlen ▸ hi')).branch.expected (t.branches[i]'(hlen ▸ hi')).branch.data.writeBasket.toNat,
      ?_, fun top => ?_⟩
    rotate_left
    · obtain ⟨n, hn, hi, -⟩ := e5 hl hr' top
      refine ⟨?_, fun t ht => ?_⟩
      · rw [asIter_of hi, if_pos hn]; exact e4
      · rw [asIter_of hi, if_neg fun h' => ht (rdClassNames_disjoint h' hn)]
    rw [← e1]
    refine lookup_flat ?_ ?_ (List.mem_map_of_mem (List.getElem_mem _))
    · intro b hb
      obtain ⟨wb, hwb, rfl⟩ := List.mem_map.1 hb
      obtain ⟨j, hj, rfl⟩ := List.getElem_of_mem hwb
      exact (hread j _ _ (List.getElem?_eq_getElem (hlen ▸ hj)) (List.getElem?_eq_getElem hj)).2.1
    · rw [hlist Branch.name (fun c => c.name) fun i c b hc' hb => (hread i c b hc' hb).1]
      exact hnd

end

/-! ### The small sessions -/

theorem demo_notBaskets : ∀ p ∈ acceptedPuts demoEnv (createFile (FileW.initial (b! "d.root") 10)).2 demoOps,
    p.2.cls ≠ b! "TBasket" := by decide +kernel

theorem demo_listed : KeysListed demoOpen demoClosed 14 ∧ 14 + 2 < demoClosed.trace.length := by
  have h : (demoClosed.trace[12]?.map fun w => (w.pos : Int)) = some demoOpen.recordPos := by decide +kernel
  obtain ⟨w, hw, hp⟩ := Option.map_eq_some_iff.1 h
  exact ⟨⟨12, w, by decide, by decide, hw, hp⟩, by decide +kernel⟩

/-- The small session, with the key of the list of class records written in part. -/
example (k : Nat) (dec : Decoders) : ∃ r, openFile dec 3 (crashImage demoClosed.trace 14 k) = .ok r ∧
    r.keysName = [b! "o", b! "o"] := by
  obtain ⟨r, h, hk, -⟩ := C74_everything demo_written demo_holds demo_notBaskets demo_listed.1 demo_listed.2
    (k := k) dec 3
  exact ⟨r, h, hk.trans demo_accepted⟩

/-- The small session: in front of the record of the directory, and with the zeros of the header in part. -/
example (n k : Nat) (hn : k = 0 ∨ ¬ Redirects demoOpen demoClosed n) (dec : Decoders) :
    (∀ r, openFile dec 3 (crashImage demoClosed.trace n k) ≠ .ok r) ∨
    ∃ r, openFile dec 3 (crashImage demoClosed.trace n k) = .ok r ∧ r.keysName = [b! "o", b! "o"] := by
  rcases C74_all_or_nothing demo_written demo_holds hn dec 3 (Nat.le_refl _) with h | ⟨r, h, hk, -⟩
  · exact Or.inl h
  · exact Or.inr ⟨r, h, hk.trans demo_accepted⟩

theorem demo_not_redirects : ¬ Redirects demoOpen demoClosed 17 := by
  have h : demoClosed.trace.length ≠ 17 + 1 ∧
      (demoClosed.trace[17]?.map fun w => (w.pos : Int)) ≠ some demoOpen.recordPos := by decide +kernel
  rintro (h1 | ⟨-, w, h1, h2⟩)
  · exact h.1 h1.symm
  · exact h.2 (by rw [h1, ← h2]; rfl)

theorem demo_tree_listed : KeysListed demoTreeRun.2 demoTreeClosed 15 ∧ 15 + 2 < demoTreeClosed.trace.length := by
  have h : (demoTreeClosed.trace[14]?.map fun w => (w.pos : Int)) = some demoTreeRun.2.recordPos ∧
      15 + 2 < demoTreeClosed.trace.length := by decide +kernel
  obtain ⟨w, hw, hp⟩ := Option.map_eq_some_iff.1 h.1
  exact ⟨⟨14, w, by decide, by decide, hw, hp⟩, h.2⟩

/-- The small tree, with the key of the list of class records written in part. -/
example (k : Nat) (dec : Decoders) : ∃ (r : FileR) (td : TreeData) (bs : List Branch) (v : Branch),
    openFile dec 3 (crashImage demoTreeClosed.trace 15 k) = .ok r ∧ r.getTree dec 3 (b! "t") = .ok (td, bs, none) ∧
    lookupBranch bs (b! "v") = some v ∧
    v.asIter (r.reader dec) true (some (Ty.vec .f64).rdClassNames) (Ty.vec .f64).unmarshal = .ok [[1, 2]] := by
  obtain ⟨r, td, bs, h1, h2, -, -, -, h⟩ := C74_trees demo_session_written demo_session_holds
    (by intro p hp; cases hp) (by decide) demo_tree_listed.1 demo_tree_listed.2 (k := k) dec 3 (Nat.le_refl _)
  obtain ⟨v, hv, hv'⟩ := h ⟨.vec .f64, b! "v", [[1, 2]]⟩ (by simp [demoCols]) (by decide) (by decide)
  exact ⟨r, td, bs, v, h1, h2, hv, (hv' true).1⟩

end Verif
