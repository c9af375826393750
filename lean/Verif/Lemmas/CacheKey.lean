import Std.Data.String.ToNat
import Verif.Model.Messages

/-! The cache key `"%s-%s"` determines the party id and the round: a decimal number contains no dash. -/
namespace Verif.Messages

theorem dash_not_mem_repr (n : Nat) : '-' ∉ (toString n).toList := by
  intro h
  have h' : '-' ∈ (Nat.toDigits 10 n) := by
    simpa [toString, Nat.repr] using h
  have := Nat.isDigit_of_mem_toDigits (by decide) (by decide) h'
  exact absurd this (by decide)

theorem cut_unique {a b x y : List Char} (ha : '-' ∉ a) (hb : '-' ∉ b) (h : a ++ '-' :: x = b ++ '-' :: y) :
    a = b ∧ x = y := by
  induction a generalizing b with
  | nil =>
    cases b with
    | nil => simpa using h
    | cons c b => simp at h; exact absurd h.1.symm (by simp at hb; exact fun e => hb.1 e.symm)
  | cons c a ih =>
    cases b with
    | nil => simp at h; exact absurd h.1 (by simp at ha; exact fun e => ha.1 e.symm)
    | cons d b =>
      simp at h ha hb
      obtain ⟨e, r⟩ := ih ha.2 hb.2 h.2
      exact ⟨by rw [h.1, e], r⟩

theorem toString_nat_inj {m n : Nat} (h : toString m = toString n) : m = n := by
  have : Nat.repr m = Nat.repr n := h
  exact Nat.repr_inj.1 this

theorem cacheKey_inj {i j : Nat} {r s : String} (h : cacheKey i r = cacheKey j s) : i = j ∧ r = s := by
  have h' : (cacheKey i r).toList = (cacheKey j s).toList := by rw [h]
  simp only [cacheKey, String.toList_append] at h'
  have : "-".toList = ['-'] := rfl
  rw [this] at h'
  simp only [List.append_assoc, List.singleton_append] at h'
  obtain ⟨e1, e2⟩ := cut_unique (dash_not_mem_repr i) (dash_not_mem_repr j) h'
  exact ⟨toString_nat_inj (String.toList_inj.1 e1), String.toList_inj.1 e2⟩

end Verif.Messages
