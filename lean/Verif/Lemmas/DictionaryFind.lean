import Verif.Lemmas.Dictionary
import Verif.Lemmas.TypeNames
/-
Helper lemmas: finding a record in the dictionary.
-/
namespace Verif

theorem bundled_names : (bundledList.map StreamerInfo.name).Nodup ∧
    bundledList.all (fun s => !s.name.contains 45 && decide (0 ≤ s.clsver)) = true := by
  constructor <;> decide +kernel

theorem eq_of_name {rs : List StreamerInfo} (h : (rs.map StreamerInfo.name).Nodup) {a b : StreamerInfo}
    (ha : a ∈ rs) (hb : b ∈ rs) (hn : a.name = b.name) : a = b := by
  induction rs with
  | nil => cases ha
  | cons x rs ih =>
    rw [List.map_cons, List.nodup_cons] at h
    rcases List.mem_cons.1 ha with ea | ha'
    · rcases List.mem_cons.1 hb with eb | hb'
      · rw [ea, eb]
      · exact absurd (List.mem_map.2 ⟨b, hb', by rw [← hn, ea]⟩) h.1
    · rcases List.mem_cons.1 hb with eb | hb'
      · exact absurd (List.mem_map.2 ⟨a, ha', by rw [hn, eb]⟩) h.1
      · exact ih h.2 ha' hb'

theorem decimal_plain (n : Nat) : (45 : Byte) ∉ decimal n := by
  intro h
  exact absurd (decimal_digits n _ h) (by decide)

/-- The names and versions in the keys of the records can be told apart. -/
structure PlainNames (rs : List StreamerInfo) : Prop where
  nodup : (rs.map StreamerInfo.name).Nodup
  plain : ∀ s ∈ rs, (45 : Byte) ∉ s.name
  vers : ∀ s ∈ rs, 0 ≤ s.clsver

theorem bundled_plain : PlainNames bundledList := by
  obtain ⟨h1, h2⟩ := bundled_names
  refine ⟨h1, fun s hs => ?_, fun s hs => ?_⟩
  · have := List.all_eq_true.1 h2 s hs
    simp only [Bool.and_eq_true, Bool.not_eq_true', decide_eq_true_eq] at this
    intro hm
    rw [List.contains_iff_mem.2 hm] at this
    exact absurd this.1 (by decide)
  · have := List.all_eq_true.1 h2 s hs
    simp only [Bool.and_eq_true, decide_eq_true_eq] at this
    exact this.2

theorem split_hyphen {a b x y : List Byte} (ha : (45 : Byte) ∉ a) (hb : (45 : Byte) ∉ b)
    (h : a ++ 45 :: x = b ++ 45 :: y) : a = b ∧ x = y := by
  induction a generalizing b with
  | nil =>
    cases b with
    | nil => exact ⟨rfl, by injection h⟩
    | cons c b =>
      injection h with h1 h2
      exact absurd (by rw [← h1]; exact List.mem_cons_self ..) hb
  | cons c a ih =>
    cases b with
    | nil =>
      injection h with h1 h2
      exact absurd (by rw [h1]; exact List.mem_cons_self ..) ha
    | cons d b =>
      injection h with h1 h2
      obtain ⟨h3, h4⟩ := ih (fun h => ha (List.mem_cons_of_mem _ h)) (fun h => hb (List.mem_cons_of_mem _ h)) h2
      exact ⟨by rw [h1, h3], h4⟩

theorem first_hyphen {l : List Byte} (h : (45 : Byte) ∈ l) : ∃ a b, l = a ++ 45 :: b ∧ (45 : Byte) ∉ a := by
  induction l with
  | nil => cases h
  | cons c l ih =>
    by_cases hc : c = 45
    · exact ⟨[], l, by rw [hc]; rfl, by simp⟩
    · obtain ⟨a, b, rfl, ha⟩ := ih ((List.mem_cons.1 h).resolve_left fun e => hc e.symm)
      refine ⟨c :: a, b, rfl, fun hm => ?_⟩
      rcases List.mem_cons.1 hm with e | e
      · exact hc e.symm
      · exact ha e

theorem dbKey_eq {s : StreamerInfo} (hv : 0 ≤ s.clsver) :
    s.dbKey = s.name ++ 45 :: decimal s.clsver.natAbs := by
  unfold StreamerInfo.dbKey decimalI
  rw [if_neg (by omega)]

/-- A key that starts with `name-` belongs to the record of that name. -/
theorem key_name {rs : List StreamerInfo} (h : PlainNames rs) {s : StreamerInfo} (hs : s ∈ rs) {name t : Str}
    (ht : name ++ 45 :: t = s.dbKey) : s.name = name ∧ t = decimal s.clsver.natAbs := by
  rw [dbKey_eq (h.vers s hs)] at ht
  by_cases hn : (45 : Byte) ∈ name
  · exfalso
    obtain ⟨a, b, rfl, ha⟩ := first_hyphen hn
    have e : a ++ 45 :: (b ++ 45 :: t) = s.name ++ 45 :: decimal s.clsver.natAbs := by
      rw [← ht]; simp
    obtain ⟨-, e2⟩ := split_hyphen ha (h.plain s hs) e
    exact decimal_plain s.clsver.natAbs (by rw [← e2]; simp)
  · obtain ⟨h1, h2⟩ := split_hyphen hn (h.plain s hs) ht
    exact ⟨h1.symm, h2⟩

theorem find_unique {α} {p : α → Bool} {l : List α} {a : α} (ha : a ∈ l) (hp : p a = true)
    (hu : ∀ x ∈ l, p x = true → x = a) : l.find? p = some a := by
  cases h : l.find? p with
  | none => exact absurd hp (by simpa using List.find?_eq_none.1 h a ha)
  | some x => rw [hu x (List.mem_of_find?_eq_some h) (List.find?_some h)]

theorem findRecord_iff {rs : List StreamerInfo} (h : PlainNames rs) {name : Str} {vers : Int} {s : StreamerInfo} :
    findRecord rs name vers = some s ↔ s ∈ rs ∧ s.name = name ∧ (0 < vers → s.clsver = vers) := by
  constructor
  · intro hf
    have hm := findRecord_mem hf
    unfold findRecord at hf
    split at hf
    · next hv =>
      have := List.find?_some hf
      simp only [decide_eq_true_eq] at this
      obtain ⟨h1, h2⟩ := key_name h hm this.symm
      refine ⟨hm, h1, fun _ => ?_⟩
      have h0 := h.vers s hm
      unfold decimalI at h2
      rw [if_neg (by omega)] at h2
      have := decimal_injective h2
      omega
    · next hv =>
      have := List.find?_some hf
      rw [List.isPrefixOf_iff_prefix] at this
      obtain ⟨t, ht⟩ := this
      refine ⟨hm, (key_name h hm (t := t) (by rw [← ht]; simp)).1, fun hv' => absurd hv' hv⟩
  · rintro ⟨hm, rfl, hv⟩
    have h0 := h.vers s hm
    unfold findRecord
    split
    · next hp =>
      have hk : s.dbKey = s.name ++ 45 :: decimalI vers := by
        rw [← hv hp]; rfl
      refine find_unique (List.mem_reverse.2 hm) (decide_eq_true hk) fun x hx hpx => ?_
      have hx := List.mem_reverse.1 hx
      exact eq_of_name h.nodup hx hm (key_name h hx (of_decide_eq_true hpx).symm).1
    · refine find_unique hm ?_ fun x hx hpx => ?_
      · rw [List.isPrefixOf_iff_prefix, dbKey_eq h0]
        exact ⟨_, by rw [List.append_assoc]; rfl⟩
      · rw [List.isPrefixOf_iff_prefix] at hpx
        obtain ⟨t, ht⟩ := hpx
        exact eq_of_name h.nodup hx hm (key_name h hx (t := t) (by rw [← ht]; simp)).1

theorem PlainNames.perm {rs rs' : List StreamerInfo} (h : PlainNames rs) (hp : rs'.Perm rs) : PlainNames rs' :=
  ⟨(hp.map _).nodup_iff.2 h.nodup, fun s hs => h.plain s (hp.mem_iff.1 hs), fun s hs => h.vers s (hp.mem_iff.1 hs)⟩

theorem findRecord_perm {rs rs' : List StreamerInfo} (h : PlainNames rs) (hp : rs'.Perm rs) (name : Str) (vers : Int) :
    findRecord rs' name vers = findRecord rs name vers := by
  have h' := h.perm hp
  cases he : findRecord rs name vers with
  | some s =>
    obtain ⟨h1, h2, h3⟩ := (findRecord_iff h).1 he
    exact (findRecord_iff h').2 ⟨hp.mem_iff.2 h1, h2, h3⟩
  | none =>
    cases he' : findRecord rs' name vers with
    | none => rfl
    | some s =>
      obtain ⟨h1, h2, h3⟩ := (findRecord_iff h').1 he'
      rw [(findRecord_iff h).2 ⟨hp.mem_iff.1 h1, h2, h3⟩] at he
      cases he

end Verif
