import Verif.Model.GoSort
import Mathlib.Data.List.Pairwise
import Mathlib.Data.List.Sort

/-!
# `sort.SliceStable` with a non-strict comparison sorts in descending order
-/
namespace Verif.GoSort

variable {α : Type}

theorem sink_perm (less : α → α → Bool) (x : α) (l : List α) : (sink less x l).Perm (x :: l) := by
  induction l with
  | nil => exact List.Perm.refl _
  | cons y ys ih =>
    simp only [sink]
    split
    · exact (List.Perm.cons y ih).trans (List.Perm.swap x y ys)
    · exact List.Perm.refl _

theorem insertionSort_perm (less : α → α → Bool) (l : List α) : (insertionSort less l).Perm l := by
  have gen : ∀ (l acc : List α), (l.foldl (fun acc x => sink less x acc) acc).Perm (acc ++ l) := by
    intro l
    induction l with
    | nil => intro acc; simp
    | cons x l ih =>
      intro acc
      rw [List.foldl_cons]
      refine (ih _).trans ?_
      refine ((sink_perm less x acc).append_right l).trans ?_
      simpa using (List.perm_middle (a := x) (l₁ := acc) (l₂ := l)).symm
  exact (List.reverse_perm _).trans (by simpa using gen l [])

theorem search_spec (right : Nat → Bool) : ∀ (fuel lo hi : Nat), lo ≤ hi → hi - lo ≤ fuel →
    lo ≤ search right fuel lo hi ∧ search right fuel lo hi ≤ hi ∧
    (search right fuel lo hi = lo ∨ right (search right fuel lo hi - 1) = true) ∧
    (search right fuel lo hi = hi ∨ right (search right fuel lo hi) = false) := by
  intro fuel
  induction fuel with
  | zero =>
    intro lo hi h1 h2
    unfold search
    exact ⟨Nat.le_refl _, h1, Or.inl rfl, Or.inl (by omega)⟩
  | succ fuel ih =>
    intro lo hi h1 h2
    simp only [search]
    split
    · rename_i hlt
      by_cases hr : right ((lo + hi) / 2) = true
      · rw [if_pos hr]
        obtain ⟨a, b, c, d⟩ := ih ((lo + hi) / 2 + 1) hi (by omega) (by omega)
        refine ⟨by omega, b, ?_, d⟩
        rcases c with c | c
        · right; rw [c]; simpa using hr
        · exact Or.inr c
      · rw [if_neg hr]
        obtain ⟨a, b, c, d⟩ := ih lo ((lo + hi) / 2) (by omega) (by omega)
        refine ⟨a, by omega, c, ?_⟩
        rcases d with d | d
        · right; rw [d]; simpa using hr
        · exact Or.inr d
    · exact ⟨Nat.le_refl _, h1, Or.inl rfl, Or.inl (by omega)⟩

theorem take_drop_perm (A : List α) (i : Nat) (x : α) : (A.take i ++ x :: A.drop i).Perm (x :: A) := by
  refine List.perm_middle.trans ?_
  rw [List.take_append_drop]

theorem symMerge_perm (less : α → α → Bool) : ∀ (fuel : Nat) (A B : List α), (symMerge less fuel A B).Perm (A ++ B) := by
  intro fuel
  induction fuel with
  | zero => intro A B; exact List.Perm.refl _
  | succ fuel ih =>
    intro A B
    unfold symMerge
    split
    · simp
    · simp
    · rename_i x _
      exact take_drop_perm _ _ x
    · rename_i A' y _ _
      exact (take_drop_perm _ _ y).trans (by simpa using (List.perm_middle (a := y) (l₁ := A) (l₂ := [])).symm)
    · dsimp only
      refine ((ih _ _).append (ih _ _)).trans ?_
      have h : ∀ s t : Nat, (A.take s ++ B.take t ++ (A.drop s ++ B.drop t)).Perm (A ++ B) := by
        intro s t
        have h : (A.take s ++ B.take t ++ (A.drop s ++ B.drop t)).Perm (A.take s ++ A.drop s ++ (B.take t ++ B.drop t)) := by
          simp only [List.append_assoc]
          refine List.Perm.append_left _ ?_
          rw [← List.append_assoc, ← List.append_assoc]
          exact List.Perm.append_right _ List.perm_append_comm
        rwa [List.take_append_drop, List.take_append_drop] at h
      exact h _ _

theorem blocks_flatten : ∀ (fuel : Nat) (l : List α), l.length ≤ fuel → (blocks fuel l).flatten = l := by
  intro fuel
  induction fuel with
  | zero => intro l h; simp at h; subst h; rfl
  | succ fuel ih =>
    intro l h
    simp only [blocks]
    split
    · rename_i h0; simp at h0; subst h0; rfl
    · rename_i h0
      rw [List.flatten_cons, ih _ (by simp; omega), List.take_append_drop]

theorem mergePass_perm (less : α → α → Bool) : ∀ (n : Nat) (l : List (List α)), l.length ≤ n →
    (mergePass less l).flatten.Perm l.flatten := by
  intro n
  induction n with
  | zero => intro l h; simp at h; subst h; exact List.Perm.refl _
  | succ n ih =>
    intro l h
    rcases l with _ | ⟨A, _ | ⟨B, rest⟩⟩
    · exact List.Perm.refl _
    · exact List.Perm.refl _
    · simp only [mergePass, List.flatten_cons, ← List.append_assoc]
      exact (symMerge_perm less _ A B).append (ih rest (by simp at h; omega))

theorem mergeAll_perm (less : α → α → Bool) : ∀ (fuel : Nat) (l : List (List α)), (mergeAll less fuel l).flatten.Perm l.flatten := by
  intro fuel
  induction fuel with
  | zero => intro l; exact List.Perm.refl _
  | succ fuel ih =>
    intro l
    simp only [mergeAll]
    split
    · exact List.Perm.refl _
    · exact (ih _).trans (mergePass_perm less _ l (Nat.le_refl _))

theorem map_flatten_perm {f : List α → List α} (hf : ∀ l, (f l).Perm l) (ls : List (List α)) : (ls.map f).flatten.Perm ls.flatten := by
  induction ls with
  | nil => exact List.Perm.refl _
  | cons l ls ih => simp only [List.map_cons, List.flatten_cons]; exact (hf l).append ih

/-- the result has the same elements, whatever the comparison -/
theorem sliceStable_perm (less : α → α → Bool) (l : List α) : (sliceStable less l).Perm l := by
  unfold sliceStable
  refine (mergeAll_perm less _ _).trans ?_
  refine (map_flatten_perm (insertionSort_perm less) _).trans ?_
  rw [blocks_flatten _ _ (Nat.le_refl _)]

/-! ## Descending order -/

/-- the comparison of the two calls in /repo -/
def geq (key : α → Nat) (a b : α) : Bool := decide (key b ≤ key a)

/-- sorted in descending order of the keys -/
abbrev Desc (key : α → Nat) (l : List α) : Prop := l.Pairwise (fun a b => key b ≤ key a)

theorem sink_sorted (key : α → Nat) (x : α) (l : List α) (h : l.Pairwise (fun a b => key a ≤ key b)) :
    (sink (geq key) x l).Pairwise (fun a b => key a ≤ key b) := by
  induction l with
  | nil => simp [sink]
  | cons y ys ih =>
    rw [List.pairwise_cons] at h
    simp only [sink]
    split
    · rename_i hxy
      have hxy := of_decide_eq_true hxy
      rw [List.pairwise_cons]
      refine ⟨?_, ih h.2⟩
      intro z hz
      rcases List.mem_cons.1 ((sink_perm _ x ys).mem_iff.1 hz) with rfl | hz
      · exact hxy
      · exact h.1 z hz
    · rename_i hxy
      have hxy := of_decide_eq_false (eq_false_of_ne_true hxy)
      rw [List.pairwise_cons, List.pairwise_cons]
      refine ⟨?_, h⟩
      intro z hz
      rcases List.mem_cons.1 hz with rfl | hz
      · omega
      · have := h.1 z hz; omega

theorem insertionSort_sorted (key : α → Nat) (l : List α) : Desc key (insertionSort (geq key) l) := by
  have gen : ∀ (l acc : List α), acc.Pairwise (fun a b => key a ≤ key b) →
      (l.foldl (fun acc x => sink (geq key) x acc) acc).Pairwise (fun a b => key a ≤ key b) := by
    intro l
    induction l with
    | nil => intro acc h; exact h
    | cons x l ih => intro acc h; exact ih _ (sink_sorted key x acc h)
  exact List.pairwise_reverse.2 (gen l [] List.Pairwise.nil)

theorem desc_get {key : α → Nat} {l : List α} (h : Desc key l) {i j : Nat} (hij : i ≤ j) {x y : α} (hx : l[i]? = some x)
    (hy : l[j]? = some y) : key y ≤ key x := by
  rcases Nat.lt_or_eq_of_le hij with hlt | rfl
  · obtain ⟨hi, hx⟩ := List.getElem?_eq_some_iff.1 hx
    obtain ⟨hj, hy⟩ := List.getElem?_eq_some_iff.1 hy
    have := List.pairwise_iff_getElem.1 h i j hi hj hlt
    rw [hx, hy] at this; exact this
  · rw [hx] at hy; cases hy; exact Nat.le_refl _

theorem desc_append {key : α → Nat} {l₁ l₂ : List α} (h₁ : Desc key l₁) (h₂ : Desc key l₂)
    (h : ∀ x ∈ l₁, ∀ y ∈ l₂, key y ≤ key x) : Desc key (l₁ ++ l₂) := List.pairwise_append.2 ⟨h₁, h₂, h⟩

theorem mem_take_get {l : List α} {i : Nat} {x : α} (h : x ∈ l.take i) : ∃ k, k < i ∧ l[k]? = some x := by
  obtain ⟨k, hk, he⟩ := List.mem_iff_getElem.1 h
  simp at hk
  exact ⟨k, hk.1, by rw [List.getElem?_eq_some_iff]; exact ⟨hk.2, by simpa using he⟩⟩

theorem mem_drop_get {l : List α} {i : Nat} {x : α} (h : x ∈ l.drop i) : ∃ k, i ≤ k ∧ l[k]? = some x := by
  obtain ⟨k, hk, he⟩ := List.mem_iff_getElem.1 h
  simp at hk
  exact ⟨i + k, by omega, by rw [List.getElem?_eq_some_iff]; exact ⟨by omega, by simpa using he⟩⟩

theorem symMerge_sorted (key : α → Nat) : ∀ (fuel : Nat) (A B : List α), A.length + B.length ≤ fuel → Desc key A → Desc key B →
    Desc key (symMerge (geq key) fuel A B) := by
  intro fuel
  induction fuel with
  | zero =>
    intro A B h hA hB
    have hA0 : A = [] := List.length_eq_zero_iff.1 (by omega)
    have hB0 : B = [] := List.length_eq_zero_iff.1 (by omega)
    subst hA0; subst hB0
    exact List.Pairwise.nil
  | succ fuel ih =>
    intro A B hf hA hB
    unfold symMerge
    split
    · exact hB
    · exact hA
    · rename_i x _
      obtain ⟨s1, s2, s3, s4⟩ := search_spec (fun h => (B[h]?).any (fun y => geq key y x)) B.length 0 B.length (Nat.zero_le _)
        (by omega)
      dsimp only
      generalize search (fun h => (B[h]?).any (fun y => geq key y x)) B.length 0 B.length = i at *
      have hleft : ∀ y ∈ B.take i, key x ≤ key y := by
        intro y hy
        obtain ⟨k, hk, hg⟩ := mem_take_get hy
        rcases s3 with s3 | s3
        · omega
        · rcases hl : B[i - 1]? with _ | z
          · rw [hl] at s3; cases s3
          · rw [hl] at s3
            have h1 := of_decide_eq_true (show decide (key x ≤ key z) = true from s3)
            have h2 := desc_get hB (show k ≤ i - 1 by omega) hg hl
            omega
      have hright : ∀ y ∈ B.drop i, key y ≤ key x := by
        intro y hy
        obtain ⟨k, hk, hg⟩ := mem_drop_get hy
        have hkl := (List.getElem?_eq_some_iff.1 hg).1
        rcases s4 with s4 | s4
        · omega
        · rcases hl : B[i]? with _ | z
          · have := List.getElem?_eq_none_iff.1 hl; omega
          · rw [hl] at s4
            have h1 := of_decide_eq_false (show decide (key x ≤ key z) = false from s4)
            have h2 := desc_get hB hk hl hg
            omega
      refine desc_append (hB.sublist (List.take_sublist _ _)) ?_ ?_
      · exact List.pairwise_cons.2 ⟨hright, hB.sublist (List.drop_sublist _ _)⟩
      · intro a ha b hb
        rcases List.mem_cons.1 hb with rfl | hb
        · exact hleft a ha
        · exact Nat.le_trans (hright b hb) (hleft a ha)
    · rename_i y _ _
      obtain ⟨s1, s2, s3, s4⟩ := search_spec (fun h => (A[h]?).any (fun x => !geq key y x)) A.length 0 A.length (Nat.zero_le _)
        (by omega)
      dsimp only
      generalize search (fun h => (A[h]?).any (fun x => !geq key y x)) A.length 0 A.length = i at *
      have hleft : ∀ x ∈ A.take i, key y ≤ key x := by
        intro x hx
        obtain ⟨k, hk, hg⟩ := mem_take_get hx
        rcases s3 with s3 | s3
        · omega
        · rcases hl : A[i - 1]? with _ | z
          · rw [hl] at s3; cases s3
          · rw [hl] at s3
            have h1 := of_decide_eq_false (show decide (key z ≤ key y) = false from by simpa [geq] using s3)
            have h2 := desc_get hA (show k ≤ i - 1 by omega) hg hl
            omega
      have hright : ∀ x ∈ A.drop i, key x ≤ key y := by
        intro x hx
        obtain ⟨k, hk, hg⟩ := mem_drop_get hx
        have hkl := (List.getElem?_eq_some_iff.1 hg).1
        rcases s4 with s4 | s4
        · omega
        · rcases hl : A[i]? with _ | z
          · have := List.getElem?_eq_none_iff.1 hl; omega
          · rw [hl] at s4
            have h1 := of_decide_eq_true (show decide (key z ≤ key y) = true from by simpa [geq] using s4)
            have h2 := desc_get hA hk hl hg
            omega
      refine desc_append (hA.sublist (List.take_sublist _ _)) ?_ ?_
      · exact List.pairwise_cons.2 ⟨hright, hA.sublist (List.drop_sublist _ _)⟩
      · intro a ha b hb
        rcases List.mem_cons.1 hb with rfl | hb
        · exact hleft a ha
        · exact Nat.le_trans (hright b hb) (hleft a ha)
    · rename_i hA0 hA1 hB0 hB1
      dsimp only
      have lA : 2 ≤ A.length := by
        rcases A with _ | ⟨a, _ | ⟨a', A⟩⟩
        · exact absurd rfl hA0
        · exact absurd rfl (hA1 a)
        · simp
      have lB : 2 ≤ B.length := by
        rcases B with _ | ⟨a, _ | ⟨a', B⟩⟩
        · exact absurd rfl hB0
        · exact absurd rfl (hB1 a)
        · simp
      generalize hmid : (A.length + B.length) / 2 = mid
      generalize hright : (fun c => (A[c]?).any (fun x => (B[mid - 1 - c]?).any (fun y => !geq key y x))) = right
      -- where the search ends
      have hs : ∃ s, (if A.length > mid then search right (A.length + B.length) (mid + A.length - (A.length + B.length)) mid
          else search right (A.length + B.length) 0 A.length) = s ∧ s ≤ A.length ∧ s ≤ mid ∧ mid - s ≤ B.length ∧
          (s = 0 ∨ mid - s = B.length ∨ right (s - 1) = true) ∧ (s = A.length ∨ s = mid ∨ right s = false) := by
        split
        · rename_i hm
          obtain ⟨s1, s2, s3, s4⟩ := search_spec right (A.length + B.length) (mid + A.length - (A.length + B.length)) mid (by omega) (by omega)
          refine ⟨_, rfl, by omega, s2, by omega, ?_, ?_⟩
          · rcases s3 with s3 | s3
            · exact Or.inr (Or.inl (by omega))
            · exact Or.inr (Or.inr s3)
          · rcases s4 with s4 | s4
            · exact Or.inr (Or.inl s4)
            · exact Or.inr (Or.inr s4)
        · rename_i hm
          obtain ⟨s1, s2, s3, s4⟩ := search_spec right (A.length + B.length) 0 A.length (Nat.zero_le _) (by omega)
          refine ⟨_, rfl, s2, by omega, by omega, ?_, ?_⟩
          · rcases s3 with s3 | s3
            · exact Or.inl s3
            · exact Or.inr (Or.inr s3)
          · rcases s4 with s4 | s4
            · exact Or.inl s4
            · exact Or.inr (Or.inr s4)
      obtain ⟨s, hs, b1, b2, b3, e1, e2⟩ := hs
      rw [hs]
      have c1 : ∀ x ∈ A.take s, ∀ y ∈ B.drop (mid - s), key y ≤ key x := by
        intro x hx y hy
        obtain ⟨k, hk, hgx⟩ := mem_take_get hx
        obtain ⟨k', hk', hgy⟩ := mem_drop_get hy
        have hl' := (List.getElem?_eq_some_iff.1 hgy).1
        rcases e1 with e1 | e1 | e1
        · omega
        · omega
        · rw [← hright] at e1
          dsimp only at e1
          rcases ha : A[s - 1]? with _ | a
          · rw [ha] at e1; cases e1
          · rcases hb : B[mid - 1 - (s - 1)]? with _ | b
            · rw [ha, hb] at e1; cases e1
            · rw [ha, hb] at e1
              have h1 := of_decide_eq_false (show decide (key a ≤ key b) = false from by simpa [geq] using e1)
              have h2 := desc_get hA (show k ≤ s - 1 by omega) hgx ha
              have h3 := desc_get hB (show mid - 1 - (s - 1) ≤ k' by omega) hb hgy
              omega
      have c2 : ∀ x ∈ B.take (mid - s), ∀ y ∈ A.drop s, key y ≤ key x := by
        intro x hx y hy
        obtain ⟨k, hk, hgx⟩ := mem_take_get hx
        obtain ⟨k', hk', hgy⟩ := mem_drop_get hy
        have hl' := (List.getElem?_eq_some_iff.1 hgy).1
        rcases e2 with e2 | e2 | e2
        · omega
        · omega
        · rw [← hright] at e2
          dsimp only at e2
          rcases ha : A[s]? with _ | a
          · have := List.getElem?_eq_none_iff.1 ha; omega
          · rcases hb : B[mid - 1 - s]? with _ | b
            · have := List.getElem?_eq_none_iff.1 hb; omega
            · rw [ha, hb] at e2
              have h1 := of_decide_eq_true (show decide (key a ≤ key b) = true from by simpa [geq] using e2)
              have h2 := desc_get hA (show s ≤ k' by omega) ha hgy
              have h3 := desc_get hB (show k ≤ mid - 1 - s by omega) hgx hb
              omega
      have c3 : ∀ x ∈ A.take s, ∀ y ∈ A.drop s, key y ≤ key x := by
        intro x hx y hy
        obtain ⟨k, hk, hgx⟩ := mem_take_get hx
        obtain ⟨k', hk', hgy⟩ := mem_drop_get hy
        exact desc_get hA (by omega) hgx hgy
      have c4 : ∀ x ∈ B.take (mid - s), ∀ y ∈ B.drop (mid - s), key y ≤ key x := by
        intro x hx y hy
        obtain ⟨k, hk, hgx⟩ := mem_take_get hx
        obtain ⟨k', hk', hgy⟩ := mem_drop_get hy
        exact desc_get hB (by omega) hgx hgy
      refine desc_append (ih _ _ ?_ (hA.sublist (List.take_sublist _ _)) (hB.sublist (List.take_sublist _ _)))
        (ih _ _ ?_ (hA.sublist (List.drop_sublist _ _)) (hB.sublist (List.drop_sublist _ _))) ?_
      · simp only [List.length_take]; omega
      · simp only [List.length_drop]; omega
      · intro x hx y hy
        have hx := (symMerge_perm _ _ _ _).mem_iff.1 hx
        have hy := (symMerge_perm _ _ _ _).mem_iff.1 hy
        rcases List.mem_append.1 hx with hx | hx <;> rcases List.mem_append.1 hy with hy | hy
        · exact c3 x hx y hy
        · exact c1 x hx y hy
        · exact c2 x hx y hy
        · exact c4 x hx y hy

theorem mergePass_sorted (key : α → Nat) : ∀ (n : Nat) (l : List (List α)), l.length ≤ n → (∀ b ∈ l, Desc key b) →
    (∀ b ∈ mergePass (geq key) l, Desc key b) ∧ (mergePass (geq key) l).length = (l.length + 1) / 2 := by
  intro n
  induction n with
  | zero => intro l h hl; simp at h; subst h; exact ⟨by simp [mergePass], by simp [mergePass]⟩
  | succ n ih =>
    intro l h hl
    rcases l with _ | ⟨A, _ | ⟨B, rest⟩⟩
    · exact ⟨by simp [mergePass], by simp [mergePass]⟩
    · exact ⟨hl, by simp [mergePass]⟩
    · obtain ⟨i1, i2⟩ := ih rest (by simp at h; omega) (fun b hb => hl b (by simp [hb]))
      refine ⟨?_, by simp only [mergePass, List.length_cons, i2]; omega⟩
      intro b hb
      simp only [mergePass, List.mem_cons] at hb
      rcases hb with rfl | hb
      · exact symMerge_sorted key _ A B (Nat.le_refl _) (hl A (by simp)) (hl B (by simp))
      · exact i1 b hb

theorem mergeAll_sorted (key : α → Nat) : ∀ (fuel : Nat) (l : List (List α)), l.length ≤ fuel → (∀ b ∈ l, Desc key b) →
    Desc key (mergeAll (geq key) fuel l).flatten := by
  intro fuel
  induction fuel with
  | zero => intro l h _; simp at h; subst h; exact List.Pairwise.nil
  | succ fuel ih =>
    intro l h hl
    simp only [mergeAll]
    split
    · rename_i h1
      rcases l with _ | ⟨b, _ | ⟨b', l⟩⟩
      · exact List.Pairwise.nil
      · simpa using hl b (by simp)
      · simp at h1
    · rename_i h1
      obtain ⟨h2, h3⟩ := mergePass_sorted key _ l (Nat.le_refl _) hl
      exact ih _ (by omega) h2

/-- sorting with the comparison "not smaller" gives a descending list -/
theorem sliceStable_desc (key : α → Nat) (l : List α) : Desc key (sliceStable (geq key) l) := by
  unfold sliceStable
  refine mergeAll_sorted key _ _ (Nat.le_refl _) ?_
  intro b hb
  obtain ⟨b', _, rfl⟩ := List.mem_map.1 hb
  exact insertionSort_sorted key b'

/-- two descending lists with the same keys have the same keys position by position -/
theorem desc_keys_eq {β : Type} (k₁ : α → Nat) (k₂ : β → Nat) (l₁ : List α) (l₂ : List β) (h₁ : Desc k₁ l₁) (h₂ : Desc k₂ l₂)
    (hp : (l₁.map k₁).Perm (l₂.map k₂)) : l₁.map k₁ = l₂.map k₂ := by
  refine List.Perm.eq_of_pairwise (le := fun a b => b ≤ a) ?_ (List.pairwise_map.2 h₁) (List.pairwise_map.2 h₂) hp
  intro a b _ _ h h'; omega

end Verif.GoSort
