import Verif.Spec.Members
import Verif.Lemmas.TypeNames
/-
Looking up the description of a member.
-/
namespace Verif

theorem find?_only {α} {p : α → Bool} {l : List α} {a : α} (ha : a ∈ l) (hp : p a = true) (hu : ∀ x ∈ l, p x = true → x = a) :
    l.find? p = some a := by
  cases h : l.find? p with
  | none => exact absurd hp (List.find?_eq_none.1 h a ha)
  | some x => rw [hu x (List.mem_of_find?_eq_some h) (List.find?_some h)]

theorem ClassMember.streamer {r : Reader} {e : BranchElem} {m : Streamer} (h : ClassMember r.sinfos e.className m)
    {n : Str} (hn : cleanName n = m.element.named.name) : e.streamer r n = some m := by
  obtain ⟨si, h1, h2, h3, h4, h5⟩ := h
  unfold BranchElem.streamer
  rw [find?_only (a := si) (List.mem_reverse.2 h1) (by simpa using h2) fun x hx hp =>
    h3 x (List.mem_reverse.1 hx) (by simpa using hp)]
  dsimp only
  unfold StreamerInfo.get
  refine find?_only h4 (decide_eq_true hn.symm) fun x hx hp => h5 x hx ?_
  rw [← hn]
  exact of_decide_eq_true hp

theorem MemberName.clean {n member : Str} (h : MemberName n member) : cleanName n = member := by
  obtain ⟨hl, hm, outer, dims, rfl, ho, hd, hdd⟩ := h
  have hline : (outer ++ member ++ dims).takeWhile (· ≠ 10) = outer ++ member ++ dims := by
    have := takeWhile_all (p := fun b : Byte => decide (b ≠ 10)) (l := outer ++ member ++ dims)
      (fun a ha => decide_eq_true fun (e : a = 10) => hl (e ▸ ha)) []
    simpa using this
  have htail : (((outer ++ member ++ dims).reverse.takeWhile fun b : Byte => decide (b ≠ 46))).length =
      (member ++ dims).length := by
    have e : (outer ++ member ++ dims).reverse = (member ++ dims).reverse ++ outer.reverse := by simp
    have hnone : outer.reverse.takeWhile (fun b : Byte => decide (b ≠ 46)) = [] := by
      rcases ho with rfl | ho
      · rfl
      · rw [← List.head?_reverse] at ho
        cases hr : outer.reverse with
        | nil => rfl
        | cons c l =>
          rw [hr] at ho
          cases ho
          rfl
    rw [e, takeWhile_all (l := (member ++ dims).reverse), hnone]
    · simp [Nat.add_comm]
    · intro a ha
      rcases List.mem_append.1 (List.mem_reverse.1 ha) with h | h
      · simpa using (hm a h).1
      · exact decide_eq_true fun (e : a = 46) => hdd (e ▸ h)
  unfold cleanName
  dsimp only
  rw [hline, htail]
  have e : (outer ++ member ++ dims).length - (member ++ dims).length = outer.length := by
    simp only [List.length_append]
    omega
  rw [e, List.append_assoc, List.drop_left, takeWhile_all fun a ha => by simpa using hm a ha]
  rcases hd with rfl | hd
  · simp
  · cases dims with
    | nil => simp
    | cons c l =>
      cases hd
      simp

/-- The codes of leaves that say nothing of the type. -/
theorem leafTypeName_object {code : Int} (h : code < 0 ∨ 80 ≤ code ∨ code = 65) : leafTypeName code = none := by
  rcases h with h | h | rfl
  · unfold leafTypeName
    rw [if_pos h]
  · unfold leafTypeName
    rw [if_neg (by omega)]
    dsimp only
    rw [if_neg (by omega), if_neg (by omega)]
    repeat rw [if_neg (by omega)]
  · decide

end Verif
