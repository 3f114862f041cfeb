import Verif.Lemmas.MadeStorable
import Verif.Lemmas.TreeInfos
import Verif.Lemmas.TreeSucceeds
import Verif.Spec.Total
/-
Making and writing a tree of supported columns succeeds.
-/
namespace Verif

/-! ### Making the tree -/

theorem WBranch.new_runs {t : Ty} (h : t.isSupported = true) (name : Str) (items : List (Option (Wr Nat))) (io : Nat) :
    ∃ b sis, WBranch.new t name items io = .ok (b, sis) := by
  cases t with
  | vec e => cases e <;> first | (cases h; done) | exact ⟨_, _, rfl⟩
  | arr n e =>
    simp only [Ty.isSupported, Bool.and_eq_true, decide_eq_true_eq] at h
    obtain ⟨⟨h0, h1⟩, he⟩ := h
    have has : asI 4 (n : Int) = n := asI_of (by decide) (inI4_of (by omega) (by omega))
    have hl : ∃ l, Leaf.new (.arr n e) name = .ok l := by
      unfold Leaf.new
      dsimp only
      rw [has, if_neg (by omega)]
      cases e <;> first | (cases he; done) | exact ⟨_, rfl⟩
    obtain ⟨l, hl⟩ := hl
    unfold WBranch.new
    rw [Res.bind_ok hl]
    exact ⟨_, _, rfl⟩
  | _ => exact ⟨_, _, rfl⟩

/-- The branch made for a column. -/
def IsNew (c : Column) (b : WBranch) : Prop :=
  ∃ sis, WBranch.new c.ty c.name (c.vals.map fun v => some (c.ty.marshal v)) 0 = .ok (b, sis)

theorem build_runs {cols done : List Column} {t : WTree} (hio : t.data.iobits = 0) (hs : t.sinfos.isSome = true)
    (ht : All2 IsNew done t.branches) (hc : ∀ c ∈ cols, c.ty.isSupported = true) :
    ∃ t', cols.foldlM (fun t c => t.newBranch c.ty c.name (c.vals.map some)) t = .ok t' ∧
      All2 IsNew (done ++ cols) t'.branches := by
  induction cols generalizing done t with
  | nil => exact ⟨t, rfl, by rw [List.append_nil]; exact ht⟩
  | cons c cols ih =>
    have e : (c.vals.map some).map (Option.map c.ty.marshal) = c.vals.map fun v => some (c.ty.marshal v) := by
      rw [List.map_map]; rfl
    obtain ⟨b, sis, hb⟩ := WBranch.new_runs (hc c (List.mem_cons_self ..)) c.name
      (c.vals.map fun v => some (c.ty.marshal v)) 0
    have hn : ∃ t1, t.newBranch c.ty c.name (c.vals.map some) = .ok t1 := by
      unfold WTree.newBranch WTree.pushBranch
      rw [e, hio, Res.bind_ok hb]
      dsimp only
      split
      · exact ⟨_, rfl⟩
      · cases hq : t.sinfos with
        | none => rw [hq] at hs; cases hs
        | some l => exact ⟨_, rfl⟩
    obtain ⟨t1, h1⟩ := hn
    obtain ⟨b', sis', h0, h2, h3⟩ := WTree.pushBranch_ok h1
    rw [hio, e] at h0
    obtain ⟨t', h4, h5⟩ := ih (done := done ++ [c]) (t := t1) (by rw [h2]; exact hio) (by rw [h3 hs]; rfl)
      (by rw [h2]; exact ht.snoc ⟨sis', h0⟩) (fun c hm => hc c (List.mem_cons_of_mem _ hm))
    refine ⟨t', ?_, by rwa [List.append_assoc] at h5⟩
    rw [List.foldlM_cons, Res.bind_ok h1]
    exact h4

theorem buildTree_runs {tn : Str} {cb : Nat} {cols : List Column} (hc : ∀ c ∈ cols, c.ty.isSupported = true) :
    ∃ t, buildTree tn cb cols = .ok t ∧ All2 IsNew cols t.branches :=
  build_runs (done := []) (t := { WTree.new tn with callbacks := cb }) rfl rfl trivial hc

/-! ### The start of the rounds -/

theorem IsNew.atRoom {env : Env} {tn path : Str} {f : FileW} (hi : Inv path f) {c : Column} {b : WBranch}
    (h : IsNew c b) : AtRoom env tn path f 0 c b ∧ b.pending = 0 := by
  obtain ⟨sis, h⟩ := h
  obtain ⟨l, hm, -⟩ := Made.of_new h
  obtain ⟨l0, hst⟩ := ColumnState.start (env := env) (tn := tn) hi h
  have e : l0 = l := by
    have h1 := hst.fresh.leaves
    rw [hm.branch] at h1
    injection h1 with h1
    exact h1.symm
  subst e
  obtain ⟨-, h2, -⟩ := WBranch.new_fresh h
  refine ⟨⟨_, l0, [], [], hm, by rw [Nat.zero_min]; exact hst, (fun _ d hd => by cases hd), (fun d hd => by cases hd), ?_⟩, ?_⟩
  · intro bk hbk
    rw [h2] at hbk; cases hbk
  · unfold WBranch.pending
    rw [h2]

theorem ahead_new {cols : List Column} {bs : List WBranch} (h : All2 IsNew cols bs)
    (hp : ∀ b ∈ bs, b.pending = 0) : ahead 0 cols bs = (cols.map fun c => c.load (c.bytesFrom 0)).sum := by
  induction cols generalizing bs with
  | nil => cases h.nil_left; rfl
  | cons c cols ih =>
    obtain ⟨b, bs, rfl, -, h2⟩ := h.cons_left
    simp only [ahead, List.map_cons, List.sum_cons, hp b (List.mem_cons_self ..),
      ih h2 fun b hb => hp b (List.mem_cons_of_mem _ hb), Nat.zero_add]

theorem Column.bytesFrom_zero (c : Column) : c.bytesFrom 0 = c.bytes := by
  unfold Column.bytesFrom Column.bytes
  rw [List.drop_zero, List.length_flatMap]

/-! ### The length of the record of the tree -/

theorem new_titled {t : Ty} {name : Str} {l : Leaf} (h : Leaf.new t name = .ok l)
    (harr : ∀ n e, t = .arr n e → n < 2 ^ 31) :
    l.tleaf.named.name = name ∧ l.tleaf.named.title.length ≤ name.length + 12 := by
  cases t with
  | arr n e =>
    have hlt := harr n e rfl
    have has : asI 4 (n : Int) = n := asI_of (by decide) (inI4_of (by omega) (by omega))
    unfold Leaf.new at h
    dsimp only at h
    rw [has] at h
    split at h
    · cases h
    · split at h
      · cases h
      · cases h
        refine ⟨rfl, ?_⟩
        have hd : (decimal n).length ≤ 10 := decimal_length (k := 9) (by omega)
        show (name ++ b! "[" ++ decimalI n ++ b! "]").length ≤ _
        rw [decimalI_nat]
        simp only [List.length_append]
        have e1 : (b! "[").length = 1 := rfl
        have e2 : (b! "]").length = 1 := rfl
        omega
  | vec e =>
    unfold Leaf.new at h
    obtain ⟨_, -, h⟩ := Res.ok_bind.1 h
    cases h
    exact ⟨rfl, by show name.length ≤ _; omega⟩
  | _ => cases h; exact ⟨rfl, by show name.length ≤ _; omega⟩

theorem elemOf_short {t : Ty} {e : BranchElem} (hv : ∀ e, t = .vec e → e.stlContent ≠ none)
    (h : t.elemOf = some e) : e.className.length ≤ 20 ∧ e.parent = [] ∧ e.clones = [] := by
  cases t with
  | vec x =>
    have := hv x rfl
    cases x <;> first
      | exact absurd rfl this
      | (cases h; exact ⟨by decide, rfl, rfl⟩)
  | _ => cases h

theorem DoneRoom.cap {tn path : Str} {f : FileW} {c : Column} {b : WBranch} (h : DoneRoom tn path f c b)
    (hname : c.name.length ≤ 1000) (harr : ∀ n e, c.ty = .arr n e → n < 2 ^ 31) :
    0 ≤ b.branch.data.writeBasket ∧
      b.branch.cap + 39 + leavesCap b.branch.data.leaves ≤ c.bytes / 500 + 7100 := by
  obtain ⟨b0, l0, done, hm, hcd, hb⟩ := h
  rw [Column.bytesFrom_zero] at hb
  have ht := hcd.tables
  obtain ⟨l, hl, hlike⟩ := ht.leaf
  have hroot := (rootCode_text hm harr).2
  have hdata := ht.data
  rw [hm.branch] at hdata
  have hwb : b.branch.data.writeBasket = done.length := by rw [hdata]
  have h1 : b.branch.data.named = { name := c.name, title := c.name ++ b! "/" ++ c.ty.rootCode } := by rw [hdata]; rfl
  have h2 : b.branch.data.fname = [] := by rw [hdata]; rfl
  have helem : b.branch.elem = c.ty.elemOf := by rw [ht.elem, hm.branch]; rfl
  obtain ⟨n1, n2⟩ := new_titled hm.leaf harr
  have hcap : l.cap ≤ 2 * c.name.length + 94 := by
    have : l.cap = l0.cap := by cases hlike <;> rfl
    rw [this]
    unfold Leaf.cap
    rw [n1]
    omega
  have he : b.branch.cap ≤ b.branch.data.cap + 80 := by
    unfold Branch.cap
    rw [helem]
    split
    · omega
    · next e he =>
      obtain ⟨a, b, c⟩ := elemOf_short hm.vec he
      rw [b, c]
      simp only [List.length_nil]
      omega
  refine ⟨by rw [hwb]; omega, ?_⟩
  unfold BranchData.cap at he
  rw [hl, h1, h2, hwb] at he
  rw [hl]
  unfold leavesCap at he ⊢
  simp only [List.map_cons, List.map_nil, List.sum_cons, List.sum_nil, List.length_append, List.length_nil,
    Int.toNat_natCast] at he ⊢
  have e1 : (b! "/").length = 1 := rfl
  omega

theorem treeCap_le {tn path : Str} {f : FileW} {places : Places} {cols : List Column} {bs : List WBranch} {i : Nat}
    (h : All2 (DoneRoom tn path f) cols bs) (hn : ∀ c ∈ cols, c.name.length ≤ 1000)
    (ha : ∀ c ∈ cols, ∀ n e, c.ty = .arr n e → n < 2 ^ 31) :
    treeCap tn (placeBranches places i bs) ≤ tn.length + (cols.map fun c => c.bytes / 500 + 7100).sum + 500 ∧
      ∀ b ∈ placeBranches places i bs, 0 ≤ b.branch.data.writeBasket := by
  induction cols generalizing bs i with
  | nil =>
    cases h.nil_left
    exact ⟨by simp [treeCap, placeBranches], fun b hb => by cases hb⟩
  | cons c cols ih =>
    obtain ⟨b, bs, rfl, h1, h2⟩ := h.cons_left
    obtain ⟨c1, c2⟩ := h1.cap (hn c (List.mem_cons_self ..)) (ha c (List.mem_cons_self ..))
    obtain ⟨d1, d2⟩ := ih (i := i + 1) h2 (fun c hc => hn c (List.mem_cons_of_mem _ hc))
      (fun c hc => ha c (List.mem_cons_of_mem _ hc))
    unfold treeCap at d1 ⊢
    refine ⟨?_, fun x hx => ?_⟩
    · simp only [placeBranches, List.map_cons, List.sum_cons]
      omega
    · rcases List.mem_cons.1 hx with rfl | hx
      · exact c1
      · exact d2 x hx

end Verif
