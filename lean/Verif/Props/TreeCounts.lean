import Verif.Lemmas.TreeCounts
import Verif.Spec.DemoTree
/-
C20 (a tree has as many entries as its longest branch), C25 (callbacks).
-/
namespace Verif

/-- C20: whatever the columns and the file, a tree that has been written counts as many entries as its
longest column has values. -/
theorem C20_entries {env : Env} {places : Places} {name : Str} {cb : Nat} {cols : List Column}
    {t t' : WTree} {f f' : FileW} (hb : buildTree name cb cols = .ok t)
    (h : t.write env places f = (.ok t', f')) :
    (∀ c ∈ cols, (c.vals.length : Int) ≤ t'.data.entries) ∧
      (cols = [] → t'.data.entries = 0) ∧
      (cols ≠ [] → ∃ c ∈ cols, t'.data.entries = c.vals.length) := by
  obtain ⟨-, h2, -⟩ := WTree.write_fed hb h
  rw [h2]
  refine ⟨fun c hc => ?_, ?_, fun hne => ?_⟩
  · exact Int.ofNat_le.2 (longest_le.1 (Nat.le_refl _) c hc)
  · rintro rfl; rfl
  · clear h h2 hb
    induction cols with
    | nil => exact absurd rfl hne
    | cons c cols ih =>
      have e : longest (c :: cols) = max c.vals.length (longest cols) := rfl
      by_cases hle : longest cols ≤ c.vals.length
      · exact ⟨c, List.mem_cons_self, by rw [e, Nat.max_eq_left hle]⟩
      · have hne' : cols ≠ [] := by rintro rfl; exact hle (Nat.zero_le _)
        obtain ⟨d, hd, hl⟩ := ih hne'
        exact ⟨d, List.mem_cons_of_mem _ hd, by rw [e, Nat.max_eq_right (by omega)]; exact hl⟩

/-- C20: every branch has the name and as many entries as its column has values, and nothing is left
in any of the iterators. -/
theorem C20_branches {env : Env} {places : Places} {name : Str} {cb : Nat} {cols : List Column}
    {t t' : WTree} {f f' : FileW} (hb : buildTree name cb cols = .ok t)
    (h : t.write env places f = (.ok t', f')) :
    t'.branches.map (fun b => (b.branch.name, b.branch.data.entries)) =
        cols.map (fun c => (c.name, (c.vals.length : Int))) ∧
      ∀ b ∈ t'.branches, b.items = [] := by
  obtain ⟨h1, -, -⟩ := WTree.write_fed hb h
  have hl : ∀ c ∈ cols, c.vals.length ≤ longest cols := longest_le.1 (Nat.le_refl _)
  generalize longest cols = k at h1 hl
  generalize t'.branches = bs at h1
  clear h hb
  induction cols generalizing bs with
  | nil => cases h1.nil_left; exact ⟨rfl, fun b hb => by cases hb⟩
  | cons c cols ih =>
    obtain ⟨b, bs, rfl, g1, g2⟩ := h1.cons_left
    obtain ⟨e1, e2⟩ := ih (fun c hc => hl c (List.mem_cons_of_mem _ hc)) bs g2
    have hc := hl c List.mem_cons_self
    refine ⟨?_, fun b' hb' => ?_⟩
    · rw [List.map_cons, List.map_cons, e1, g1.name, g1.entries, Nat.min_eq_right (by omega)]
    · rcases List.mem_cons.1 hb' with rfl | hb'
      · rw [g1.items, List.drop_eq_nil_of_le (by omega)]; rfl
      · exact e2 b' hb'

/-- C20: one round takes exactly the next value of every column that has one: after `k` rounds, the
values that remain are those behind the first `k`. -/
theorem C20_in_order {tn : Str} {cb k : Nat} {cols : List Column} {bs bs' : List WBranch}
    {tot tot' : Int} {done : List Bool} {log : List (Nat × Event)} {f f' : FileW}
    (hb : bs.map WBranch.items = cols.map fun c => (c.vals.drop k).map fun v => some (c.ty.marshal v))
    (h : writeRound tn cb bs tot f = (.ok (bs', done, tot', log), f')) :
    bs'.map WBranch.items = cols.map fun c => (c.vals.drop (k + 1)).map fun v => some (c.ty.marshal v) := by
  induction cols generalizing bs bs' tot tot' done log f f' with
  | nil =>
    cases List.map_eq_nil_iff.1 hb
    unfold writeRound at h
    cases Fs.ok_pure.1 h |>.1
    rfl
  | cons c cols ih =>
    obtain ⟨b, bs, rfl, h1, h2⟩ := List.map_eq_cons_iff.1 hb
    unfold writeRound at h
    obtain ⟨⟨b1, n⟩, f1, h0, h⟩ := Fs.ok_bind.1 h
    have ht := WBranch.write_took h0
    obtain ⟨tot1, f2, h0, h⟩ := Fs.ok_bind.1 h
    obtain ⟨⟨bs1, done1, tot2, log1⟩, f3, h0, h⟩ := Fs.ok_bind.1 h
    have := ih h2 h0
    cases Fs.ok_pure.1 h |>.1
    rw [List.map_cons, List.map_cons, this]
    congr 1
    rw [← List.drop_drop, List.map_drop, ← show b.items = (c.vals.drop k).map fun v => some (c.ty.marshal v) from h1]
    rcases n with _ | n
    · obtain ⟨⟨e1, e2⟩ | e1, -⟩ := ht.none rfl
      · rw [e1, e2]; rfl
      · rw [e1]; rfl
    · obtain ⟨x, e1, -⟩ := ht.some rfl
      rw [e1]; rfl

/-- The bound on the number of rounds in the model of `write` plays no role. -/
theorem C20_unbounded {name : Str} {cb : Nat} {cols : List Column} {t : WTree} {f : FileW}
    (hb : buildTree name cb cols = .ok t) {fuel : Nat} (hf : longest cols < fuel) :
    writeRounds (t.left + 1) (cols.map fun _ => false) t f =
      writeRounds fuel (cols.map fun _ => false) t f := by
  obtain ⟨h1, -⟩ := buildTree_fed hb
  have := longest_left h1
  have e : (cols.map fun _ => false) = doneBefore 0 cols := by unfold doneBefore; simp
  rw [e]
  exact writeRounds_fuel h1 (by omega) (by omega) (Nat.zero_le _)

/-- C25: what the `i`-th of the registered functions hears is, for one more round than the tree has
entries, `Before` and then the names of the branches in their order; nothing else. -/
theorem C25_callbacks {env : Env} {places : Places} {name : Str} {cb : Nat} {cols : List Column}
    {t t' : WTree} {f f' : FileW} (hb : buildTree name cb cols = .ok t)
    (h : t.write env places f = (.ok t', f')) {i : Nat} (hi : i < cb) :
    (t'.log.filter fun e => e.1 = i).map Prod.snd =
      (List.replicate (t'.data.entries.toNat + 1) (roundEvents cols)).flatten := by
  obtain ⟨-, h2, h3⟩ := WTree.write_fed hb h
  rw [h2, h3, Int.toNat_natCast]
  have hc : ∀ e, ((calls cb e).filter fun x => decide (x.1 = i)).map Prod.snd = [e] := by
    intro e
    have : ∀ n, ((calls n e).filter fun x => decide (x.1 = i)).map Prod.snd = if i < n then [e] else [] := by
      intro n
      induction n with
      | zero => rfl
      | succ n ih =>
        have es : calls (n + 1) e = calls n e ++ [(n, e)] := by
          unfold calls; rw [List.range_succ, List.map_append]; rfl
        rw [es, List.filter_append, List.map_append, ih]
        by_cases h1 : i < n
        · rw [if_pos h1, if_pos (by omega), List.filter_cons_of_neg (by simp; omega)]; rfl
        · by_cases h2 : n = i
          · subst h2
            simp
          · rw [if_neg h1, if_neg (by omega), List.filter_cons_of_neg (by simpa using h2)]; rfl
    rw [this, if_pos hi]
  have hr : ((roundLog cb cols).filter fun x => decide (x.1 = i)).map Prod.snd = roundEvents cols := by
    unfold roundLog roundEvents
    rw [List.filter_append, List.map_append, hc]
    rw [List.singleton_append]
    congr 1
    clear h2 h3 h hb
    induction cols with
    | nil => rfl
    | cons c cols ih =>
      rw [List.flatMap_cons, List.filter_append, List.map_append, hc, ih]; rfl
  generalize longest cols + 1 = n
  induction n with
  | zero => rfl
  | succ n ih =>
    rw [List.replicate_succ, List.replicate_succ, List.flatten_cons, List.flatten_cons,
      List.filter_append, List.map_append, ih, hr]

/-- C25: when all the functions are considered together, each event is delivered to all of them, in
the order of registration, before the next event. -/
theorem C25_all_callbacks {env : Env} {places : Places} {name : Str} {cb : Nat} {cols : List Column}
    {t t' : WTree} {f f' : FileW} (hb : buildTree name cb cols = .ok t)
    (h : t.write env places f = (.ok t', f')) :
    t'.log = ((List.replicate (t'.data.entries.toNat + 1) (roundEvents cols)).flatten).flatMap
      (fun e => (List.range cb).map fun i => (i, e)) := by
  obtain ⟨-, h2, h3⟩ := WTree.write_fed hb h
  rw [h2, h3, Int.toNat_natCast]
  have hr : roundLog cb cols = (roundEvents cols).flatMap fun e => (List.range cb).map fun i => (i, e) := by
    unfold roundLog roundEvents calls
    rw [List.flatMap_cons, List.flatMap_map]
  rw [hr]
  generalize longest cols + 1 = n
  induction n with
  | zero => rfl
  | succ n ih =>
    rw [List.replicate_succ, List.replicate_succ, List.flatten_cons, List.flatten_cons,
      List.flatMap_append, ih]

/-- C25: `After` is never delivered. -/
theorem C25_no_after {env : Env} {places : Places} {name : Str} {cb : Nat} {cols : List Column}
    {t t' : WTree} {f f' : FileW} (hb : buildTree name cb cols = .ok t)
    (h : t.write env places f = (.ok t', f')) : ∀ i, (i, Event.after) ∉ t'.log := by
  intro i hi
  rw [C25_all_callbacks hb h] at hi
  obtain ⟨e, he, hi⟩ := List.mem_flatMap.1 hi
  obtain ⟨j, -, hj⟩ := List.mem_map.1 hi
  injection hj with _ hj
  subst hj
  obtain ⟨l, hl, he⟩ := List.mem_flatten.1 he
  rw [(List.mem_replicate.1 hl).2] at he
  unfold roundEvents at he
  simp at he

/-- The hypotheses can be met, with columns of three different lengths and two functions. -/
example : ∃ t', buildTree (b! "t") 2 demoCols = .ok demoTree ∧
    demoTree.write demoTreeEnv demoPlaces demoFile = (.ok t', demoTreeRun.2) ∧
    t'.data.entries = 4 ∧ t'.log.length = 5 * (1 + 3) * 2 := by
  obtain ⟨t', h⟩ := demo_tree_written
  refine ⟨t', demo_built, h, ?_, ?_⟩
  · rw [(WTree.write_fed demo_built h).2.1]; rfl
  · rw [(WTree.write_fed demo_built h).2.2]; rfl

end Verif
