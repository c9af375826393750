import Mathlib.Data.List.Nodup
import Mathlib.Data.List.Induction

/-! Specification used by the join-party properties: the distinct members of a committee heard from, in the order of their
first message. -/
namespace Verif.Spec
variable {P : Type} [DecidableEq P]

/-- `others committee me p`: `p` is in the committee and is not the local node. -/
abbrev other (committee : List P) (me p : P) : Prop := p ∈ committee ∧ p ≠ me

/-- The distinct committee members other than `me` in the message history `h`, in the order of their first message. -/
def arrivals (committee : List P) (me : P) (h : List P) : List P :=
  h.foldl (fun heard p => if other committee me p ∧ p ∉ heard then heard ++ [p] else heard) []

@[simp] theorem arrivals_nil (c : List P) (me : P) : arrivals c me [] = [] := rfl
theorem arrivals_snoc (c : List P) (me : P) (h : List P) (p : P) :
    arrivals c me (h ++ [p]) = if other c me p ∧ p ∉ arrivals c me h then arrivals c me h ++ [p] else arrivals c me h := by
  unfold arrivals
  rw [List.foldl_append]
  rfl

theorem mem_arrivals (c : List P) (me : P) (h : List P) (p : P) :
    p ∈ arrivals c me h ↔ p ∈ h ∧ p ∈ c ∧ p ≠ me := by
  induction h using List.reverseRecOn with
  | nil => simp
  | append_singleton l q ih =>
    rw [arrivals_snoc]
    split
    · next hc =>
      simp only [List.mem_append, List.mem_singleton, ih]
      constructor
      · rintro (⟨h1, h2⟩ | rfl)
        · exact ⟨Or.inl h1, h2⟩
        · exact ⟨Or.inr rfl, hc.1⟩
      · rintro ⟨h1 | rfl, h2⟩
        · exact Or.inl ⟨h1, h2⟩
        · exact Or.inr rfl
    · next hc =>
      rw [ih]
      simp only [List.mem_append, List.mem_singleton]
      constructor
      · rintro ⟨h1, h2⟩; exact ⟨Or.inl h1, h2⟩
      · rintro ⟨h1 | rfl, h2⟩
        · exact ⟨h1, h2⟩
        · by_contra hn
          exact hc ⟨h2, fun hm => hn ((ih).1 hm)⟩

theorem nodup_arrivals (c : List P) (me : P) (h : List P) : (arrivals c me h).Nodup := by
  induction h using List.reverseRecOn with
  | nil => simp
  | append_singleton l q ih =>
    rw [arrivals_snoc]
    split
    · next hc =>
      rw [List.nodup_append]
      refine ⟨ih, by simp, ?_⟩
      intro a ha b hb hab
      simp at hb
      subst hb; subst hab
      exact hc.2 ha
    · exact ih

end Verif.Spec
