import Verif.Spec.Zip
import Verif.Lemmas.Session
/-
Helper lemmas: the columns of `ZiperBranches`.
-/
namespace Verif

/-- A column in use, with the cells it still has to give. -/
inductive Live : ZipColumn → List (Res Chunk) → List (List Byte) → Prop
  | over {col it} : col.buffer = none → Live col it []
  | on {n size : Int} {buf : List Byte} {cur : Nat} {cs : List Chunk} : (Chunk.regular n size buf).Fixed → (cur : Int) < n → (∀ c ∈ cs, c.Fixed) →
      Live ⟨some (.regular n size buf), cur, n⟩ (cs.map .ok)
        ((Chunk.regular n size buf).cells.drop cur ++ cs.flatMap Chunk.cells)

theorem cells_length {n size : Int} {buf : List Byte} :
    (Chunk.regular n size buf).cells.length = n.toNat := by
  simp [Chunk.cells]

theorem cells_drop {n size : Int} {buf : List Byte} {cur : Nat} (h : (cur : Int) < n) :
    (Chunk.regular n size buf).cells.drop cur =
      (buf.drop (cur * size.toNat)).take size.toNat :: (Chunk.regular n size buf).cells.drop (cur + 1) := by
  have hl : cur < (Chunk.regular n size buf).cells.length := by rw [cells_length]; omega
  rw [List.drop_eq_getElem_cons hl]
  simp [Chunk.cells]

/-- A chunk that has just been taken. -/
theorem Live.first {c : Chunk} {cs : List Chunk} (h : ∀ x ∈ c :: cs, x.Fixed) :
    Live ⟨some c, 0, c.count⟩ (cs.map .ok) (c.cells ++ cs.flatMap Chunk.cells) := by
  have hc := h c (List.mem_cons_self ..)
  cases c with
  | irregular => exact hc.elim
  | regular n size buf => exact .on hc hc.1 fun x hx => h x (List.mem_cons_of_mem _ hx)

theorem cells_pos {c : Chunk} (h : c.Fixed) : c.cells ≠ [] := by
  cases c with
  | irregular => exact h.elim
  | regular n size buf =>
    intro e
    have := congrArg List.length e
    rw [cells_length, List.length_nil] at this
    have := h.1
    omega

theorem Live.step {col : ZipColumn} {it : List (Res Chunk)} {x : List Byte} {rem rows : List (List Byte)}
    (h : Live col it rows) (hr : rows = x :: rem) :
    ∃ col' it', col.step it = .ok (x, col', it') ∧ Live col' it' rem := by
  cases h with
  | over => cases hr
  | @on n size buf cur cs hf hlt hcs =>
    obtain ⟨h1, h2, h3⟩ := hf
    rw [cells_drop hlt, List.cons_append] at hr
    obtain ⟨rfl, rfl⟩ := List.cons.inj hr
    have hle : ((cur : Int) + 1) * size ≤ n * size := Int.mul_le_mul_of_nonneg_right (by omega) h2
    have hpos : 0 ≤ (cur : Int) * size := Int.mul_nonneg (by omega) h2
    have hsum : ((cur : Int) + 1) * size = cur * size + size := by rw [Int.add_mul, Int.one_mul]
    have htn : ((cur : Int) * size).toNat = cur * size.toNat := by
      have : size = (size.toNat : Int) := (Int.toNat_of_nonneg h2).symm
      rw [this, ← Int.natCast_mul, Int.toNat_natCast, Int.toNat_natCast]
    have hs : slice buf ((cur : Int) * size) (((cur : Int) + 1) * size) =
        .ok ((buf.drop (cur * size.toNat)).take size.toNat) := by
      unfold slice
      rw [if_pos ⟨hpos, by omega, by omega⟩, htn]
      congr 3
      omega
    unfold ZipColumn.step
    dsimp only
    rw [if_neg (by omega), hs]
    change ∃ col' it', (if ((cur + 1 : Nat) : Int) = n then _ else _) = _ ∧ _
    split
    · next he =>
      have hd : (Chunk.regular n size buf).cells.drop (cur + 1) = [] := by
        apply List.drop_eq_nil_of_le
        rw [cells_length]
        omega
      cases cs with
      | nil =>
        refine ⟨_, _, rfl, ?_⟩
        rw [hd]
        exact .over rfl
      | cons c cs =>
        refine ⟨_, _, rfl, ?_⟩
        rw [hd, List.nil_append, List.flatMap_cons]
        exact .first hcs
    · next he => exact ⟨_, _, rfl, .on ⟨h1, h2, h3⟩ (by omega) hcs⟩

/-- The columns side by side. -/
def AllLive : List ZipColumn → List (List (Res Chunk)) → List (List (List Byte)) → Prop
  | [], [], [] => True
  | c :: cs, it :: its, r :: rs => Live c it r ∧ AllLive cs its rs
  | _, _, _ => False

theorem AllLive.steps : ∀ {cols : List ZipColumn} {its : List (List (Res Chunk))}
    {rows : List (List (List Byte))}, AllLive cols its rows → (∀ r ∈ rows, r ≠ []) →
    ∃ cols' its', zipSteps cols its = .ok (rows.flatMap fun r => r.headD [], cols', its') ∧
      AllLive cols' its' (rows.map List.tail)
  | [], [], [], _, _ => ⟨[], [], rfl, trivial⟩
  | c :: cs, it :: its, r :: rs, h, hne => by
    obtain ⟨h1, h2⟩ := h
    obtain ⟨cols, its', h3, h4⟩ := h2.steps fun r hr => hne r (List.mem_cons_of_mem _ hr)
    cases r with
    | nil => exact absurd rfl (hne [] (List.mem_cons_self ..))
    | cons x xs =>
      obtain ⟨c', it', h5, h6⟩ := h1.step rfl
      refine ⟨c' :: cols, it' :: its', ?_, h6, h4⟩
      unfold zipSteps
      rw [h5]
      change (do
        let y ← zipSteps cs its
        pure (x ++ y.1, c' :: y.2.1, it' :: y.2.2) : Res _) = _
      rw [h3]
      rfl

theorem AllLive.alive : ∀ {cols : List ZipColumn} {its : List (List (Res Chunk))}
    {rows : List (List (List Byte))}, AllLive cols its rows → (∀ r ∈ rows, r ≠ []) →
    (cols.any fun c => c.buffer.isNone) = false ∧ cols.all ZipColumn.regular = true
  | [], [], [], _, _ => ⟨rfl, rfl⟩
  | c :: cs, it :: its, r :: rs, h, hne => by
    obtain ⟨h1, h2⟩ := h
    obtain ⟨h3, h4⟩ := h2.alive fun r hr => hne r (List.mem_cons_of_mem _ hr)
    have hr := hne r (List.mem_cons_self ..)
    cases h1 with
    | over => exact absurd rfl hr
    | on => exact ⟨by rw [List.any_cons, h3]; rfl, by rw [List.all_cons, h4]; rfl⟩

theorem AllLive.dead : ∀ {cols : List ZipColumn} {its : List (List (Res Chunk))}
    {rows : List (List (List Byte))}, AllLive cols its rows → (∀ r ∈ rows, r = []) →
    cols.all (fun c => c.buffer.isNone) = true
  | [], [], [], _, _ => rfl
  | c :: cs, it :: its, r :: rs, h, hne => by
    obtain ⟨h1, h2⟩ := h
    have h3 := h2.dead fun r hr => hne r (List.mem_cons_of_mem _ hr)
    have hr := hne r (List.mem_cons_self ..)
    cases h1 with
    | over hb => rw [List.all_cons, h3, hb]; rfl
    | on hf hlt =>
      rw [cells_drop hlt] at hr
      cases hr

theorem AllLive.length : ∀ {cols : List ZipColumn} {its : List (List (Res Chunk))}
    {rows : List (List (List Byte))}, AllLive cols its rows → cols.length = rows.length
  | [], [], [], _ => rfl
  | _ :: _, _ :: _, _ :: _, h => by rw [List.length_cons, List.length_cons, h.2.length]

/-- The rows of the columns. -/
def rowsOf (rows : List (List (List Byte))) (i : Nat) : List Byte := rows.flatMap fun r => (r[i]?).getD []

theorem zipAll_live {m : Nat} : ∀ {cols : List ZipColumn} {its : List (List (Res Chunk))}
    {rows : List (List (List Byte))} {calls : Nat}, cols ≠ [] → AllLive cols its rows →
    (∀ r ∈ rows, r.length = m) → m < calls →
    zipAll calls cols its = .ok ((List.range m).map (rowsOf rows)) := by
  induction m with
  | zero =>
    intro cols its rows calls hne h hlen hc
    obtain ⟨k, rfl⟩ : ∃ k, calls = k + 1 := ⟨calls - 1, by omega⟩
    have hd := h.dead fun r hr => List.length_eq_zero_iff.1 (hlen r hr)
    have hany : (cols.any fun c => c.buffer.isNone) = true := by
      cases cols with
      | nil => exact absurd rfl hne
      | cons c cs =>
        rw [List.all_cons, Bool.and_eq_true] at hd
        rw [List.any_cons, hd.1]
        rfl
    unfold zipAll
    rw [if_neg hne]
    change (if cols = [] then _ else _) = _
    rw [if_neg hne, if_pos hany]
    rfl
  | succ m ih =>
    intro cols its rows calls hne h hlen hc
    obtain ⟨k, rfl⟩ : ∃ k, calls = k + 1 := ⟨calls - 1, by omega⟩
    have hrn : ∀ r ∈ rows, r ≠ [] := fun r hr e => by
      have := hlen r hr
      rw [e] at this
      cases this
    obtain ⟨h1, h2⟩ := h.alive hrn
    obtain ⟨cols', its', h3, h4⟩ := h.steps hrn
    have hne' : cols' ≠ [] := by
      intro e
      have h5 := h4.length
      have h6 := h.length
      rw [e, List.length_map, List.length_nil] at h5
      exact hne (List.length_eq_zero_iff.1 (by omega))
    have hr := ih (calls := k) hne' h4 (fun r hr => by
      obtain ⟨x, hx, rfl⟩ := List.mem_map.1 hr
      rw [List.length_tail, hlen x hx]
      omega) (by omega)
    unfold zipAll
    rw [if_neg hne]
    change (if cols = [] then _ else _) = _
    rw [if_neg hne, if_neg (by rw [h1]; decide), if_neg (by rw [h2]; decide), h3]
    change (do
      let rest ← zipAll k cols' its'
      pure ((rows.flatMap fun r => r.headD []) :: rest) : Res _) = _
    rw [hr]
    change Except.ok _ = _
    rw [List.range_succ_eq_map, List.map_cons, List.map_map]
    congr 2
    · unfold rowsOf
      congr 1
      funext r
      cases r <;> rfl
    · congr 1
      funext i
      unfold rowsOf
      rw [List.flatMap_map]
      congr 1
      funext r
      cases r <;> simp

/-- The first chunks. -/
theorem fillOutput_live : ∀ {subs : List (List Chunk)}, (∀ cs ∈ subs, cs ≠ [] ∧ ∀ c ∈ cs, c.Fixed) →
    ∃ its cols, fillOutput (subs.map (List.map .ok)) = .ok (its, cols) ∧
      AllLive cols its (subs.map fun cs => cs.flatMap Chunk.cells)
  | [], _ => ⟨[], [], rfl, trivial⟩
  | cs :: subs, h => by
    obtain ⟨its, cols, h1, h2⟩ := fillOutput_live fun cs hc => h cs (List.mem_cons_of_mem _ hc)
    obtain ⟨hne, hf⟩ := h cs (List.mem_cons_self ..)
    cases cs with
    | nil => exact absurd rfl hne
    | cons c cs =>
      refine ⟨cs.map .ok :: its, ⟨some c, 0, c.count⟩ :: cols, ?_, ?_, h2⟩
      · rw [List.map_cons, List.map_cons]
        unfold fillOutput
        rw [h1]
        rfl
      · show Live _ _ ((c :: cs).flatMap Chunk.cells)
        rw [List.flatMap_cons]
        exact .first hf

theorem fillOutput_none : ∀ {subs : List (List Chunk)}, (∀ cs ∈ subs, cs = []) →
    ∃ its, fillOutput (subs.map (List.map .ok)) = .ok (its, [])
  | [], _ => ⟨[], rfl⟩
  | cs :: subs, h => by
    obtain ⟨its, h1⟩ := fillOutput_none fun cs hc => h cs (List.mem_cons_of_mem _ hc)
    have := h cs (List.mem_cons_self ..)
    subst this
    refine ⟨[] :: its, ?_⟩
    rw [List.map_cons, List.map_nil]
    unfold fillOutput
    rw [h1]
    rfl

/-- All the entries. -/
theorem zipAll_rows {subs : List (List Chunk)} {m calls : Nat} (hf : ∀ cs ∈ subs, ∀ c ∈ cs, c.Fixed)
    (hm : ∀ cs ∈ subs, (cs.flatMap Chunk.cells).length = m) (hs : subs ≠ []) (hc : m < calls) :
    zipAll calls [] (subs.map (List.map .ok)) = .ok ((List.range m).map (rowOf subs)) := by
  have hnil : ∀ cs ∈ subs, (cs = [] ↔ m = 0) := by
    intro cs h
    have h1 := hm cs h
    constructor
    · rintro rfl
      exact h1.symm
    · intro h0
      cases cs with
      | nil => rfl
      | cons c cs =>
        have := cells_pos (hf _ h c (List.mem_cons_self ..))
        rw [List.flatMap_cons, List.length_append] at h1
        have := List.length_pos_iff.2 this
        omega
  obtain ⟨k, rfl⟩ : ∃ k, calls = k + 1 := ⟨calls - 1, by omega⟩
  by_cases h0 : m = 0
  · subst h0
    obtain ⟨its, h1⟩ := fillOutput_none fun cs h => (hnil cs h).2 rfl
    unfold zipAll
    rw [if_pos rfl, h1]
    rfl
  · obtain ⟨its, cols, h1, h2⟩ := fillOutput_live (subs := subs) fun cs h =>
      ⟨fun e => h0 ((hnil cs h).1 e), hf cs h⟩
    have hne : cols ≠ [] := by
      intro e
      have := h2.length
      rw [e, List.length_map, List.length_nil] at this
      exact hs (List.length_eq_zero_iff.1 this.symm)
    have h3 := zipAll_live (calls := k + 1) hne h2 (fun r hr => by
      obtain ⟨cs, hcs, rfl⟩ := List.mem_map.1 hr
      exact hm cs hcs) hc
    have e : zipAll (k + 1) [] (subs.map (List.map .ok)) = zipAll (k + 1) cols its := by
      unfold zipAll
      rw [if_pos rfl, if_neg hne, h1]
    rw [e, h3]
    congr 2
    funext i
    unfold rowsOf rowOf
    rw [List.flatMap_map]

theorem le_sum {l : List Nat} {x : Nat} (h : x ∈ l) : x ≤ l.sum := by
  induction l with
  | nil => cases h
  | cons y l ih =>
    rw [List.sum_cons]
    rcases List.mem_cons.1 h with rfl | h
    · omega
    · have := ih h; omega

theorem cells_uses (cs : List Chunk) : (cs.flatMap Chunk.cells).length ≤ ((cs.map .ok).map Chunk.uses).sum := by
  induction cs with
  | nil => exact Nat.le_refl _
  | cons c cs ih =>
    rw [List.flatMap_cons, List.length_append, List.map_cons, List.map_cons, List.sum_cons]
    have : c.cells.length ≤ Chunk.uses (.ok c) := by
      cases c with
      | irregular => exact Nat.zero_le _
      | regular n size buf => rw [cells_length]; exact Nat.le_add_right ..
    omega

theorem zipCalls_gt {subs : List (List Chunk)} {m : Nat}
    (hm : ∀ cs ∈ subs, (cs.flatMap Chunk.cells).length = m) (hs : subs ≠ []) :
    m < zipCalls (subs.map (List.map .ok)) := by
  cases subs with
  | nil => exact absurd rfl hs
  | cons cs subs =>
    have h1 := hm cs (List.mem_cons_self ..)
    have h2 := cells_uses cs
    unfold zipCalls
    rw [List.map_cons, List.map_cons, List.sum_cons]
    omega

end Verif
