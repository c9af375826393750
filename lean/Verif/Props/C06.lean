import Verif.Spec.SemVer
import Mathlib.Tactic.Tauto
import Mathlib.Order.Basic
import Mathlib.Order.Nat

/-! # C06 Join-party protocol version gate is a total order -/
namespace Verif.Props.C06
open Verif.Go Verif.Version Verif.Spec.SemVer

variable {S : Type} [LinearOrder S]

theorem prCmp_lt (a b : PR S) : prCmp a b = .lt ↔ IdPrec a b := by
  cases a <;> cases b <;> simp only [prCmp, IdPrec]
  · rename_i a b
    by_cases h : a = b
    · simp [h]
    · by_cases h2 : b < a
      · simp [h, h2]; omega
      · simp [h, h2]; omega
  · simp
  · rename_i a b
    by_cases h : a = b
    · simp [h]
    · by_cases h2 : b < a
      · simp [h, h2, le_of_lt h2]
      · simp [h, h2]; exact lt_of_le_of_ne (not_lt.1 h2) h

theorem prCmp_eq (a b : PR S) : prCmp a b = .eq ↔ a = b := by
  cases a <;> cases b <;> simp only [prCmp]
  · rename_i a b
    by_cases h : a = b
    · simp [h]
    · simp [h]; split <;> simp
  · simp
  · simp
  · rename_i a b
    by_cases h : a = b
    · simp [h]
    · simp [h]; split <;> simp

theorem preLoop_lt (p q : List (PR S)) : preLoop p q = .lt ↔ ListPrec p q := by
  induction p generalizing q with
  | nil =>
    cases q with
    | nil => simp only [preLoop]; constructor; intro h; cases h; intro h; cases h
    | cons b bs => simp only [preLoop, true_iff]; exact ListPrec.nil b bs
  | cons a as ih =>
    cases q with
    | nil => simp only [preLoop]; constructor; intro h; cases h; intro h; cases h
    | cons b bs =>
      simp only [preLoop]
      rcases h : prCmp a b with _ | _ | _
      · simp only [true_iff]; exact ListPrec.head ((prCmp_lt a b).1 h) as bs
      · have hab := (prCmp_eq a b).1 h
        subst hab
        simp only [ih]
        constructor
        · intro h; exact ListPrec.tail a h
        · intro h2
          cases h2 with
          | head h3 => rw [← prCmp_lt, h] at h3; cases h3
          | tail _ h3 => exact h3
      · constructor
        · intro h; cases h
        · intro h2
          cases h2 with
          | head h3 => rw [← prCmp_lt, h] at h3; cases h3
          | tail _ h3 => rw [(prCmp_eq a a).2 rfl] at h; cases h

theorem verCmp_lt (v o : Ver S) : verCmp v o = .lt ↔ Prec v o := by
  obtain ⟨a, b, c, p⟩ := v
  obtain ⟨a', b', c', p'⟩ := o
  unfold verCmp Prec
  simp only
  by_cases h1 : a = a'
  · subst h1
    by_cases h2 : b = b'
    · subst h2
      by_cases h3 : c = c'
      · subst h3
        cases p with
        | nil => cases p' <;> simp
        | cons x xs =>
          cases p' with
          | nil => simp
          | cons y ys => simp [preLoop_lt]
      · by_cases h4 : c > c' <;> simp [h3, h4] <;> omega
    · by_cases h4 : b > b' <;> simp [h2, h4] <;> omega
  · by_cases h4 : a > a' <;> simp [h1, h4] <;> omega

/-- C06: the check answers `true` exactly when the current version precedes the expected one in semver order. -/
theorem c06_version_check_exact {T : Type} (parse : T → Option (Ver S)) (a b : T) (va vb : Ver S)
    (ha : parse a = some va) (hb : parse b = some vb) :
    ∃ r, VersionLTCheck parse a b = .ok r ∧ (r = true ↔ Prec va vb) := by
  refine ⟨decide (verCmp va vb = .lt), by simp [VersionLTCheck, ha, hb], ?_⟩
  rw [decide_eq_true_iff, verCmp_lt]

/-- C06: it fails exactly when one of the two versions cannot be parsed. -/
theorem c06_version_check_fails_iff {T : Type} (parse : T → Option (Ver S)) (a b : T) :
    (∃ e, VersionLTCheck parse a b = .err e) ↔ parse a = none ∨ parse b = none := by
  unfold VersionLTCheck
  rcases parse b with _ | vb <;> rcases parse a with _ | va <;> simp

theorem idPrec_irrefl (a : PR S) : ¬ IdPrec a a := by cases a <;> simp [IdPrec]
theorem idPrec_trans {a b c : PR S} (h : IdPrec a b) (h' : IdPrec b c) : IdPrec a c := by
  cases a <;> cases b <;> cases c <;> simp_all [IdPrec]
  · omega
  · exact lt_trans h h'
theorem idPrec_tri (a b : PR S) : IdPrec a b ∨ a = b ∨ IdPrec b a := by
  cases a <;> cases b <;> simp [IdPrec]
  · omega
  · exact lt_trichotomy _ _

theorem listPrec_irrefl (p : List (PR S)) : ¬ ListPrec p p := by
  induction p with
  | nil => intro h; cases h
  | cons a as ih =>
    intro h
    cases h with
    | head h => exact idPrec_irrefl a h
    | tail _ h => exact ih h

theorem listPrec_trans {p q r : List (PR S)} (h : ListPrec p q) (h' : ListPrec q r) : ListPrec p r := by
  induction h generalizing r with
  | nil b bs => cases h' with
    | head _ _ cs => exact ListPrec.nil _ _
    | tail _ _ => exact ListPrec.nil _ _
  | head h1 as bs => cases h' with
    | head h2 _ cs => exact ListPrec.head (idPrec_trans h1 h2) _ _
    | tail _ _ => exact ListPrec.head h1 _ _
  | tail a h1 ih => cases h' with
    | head h2 _ cs => exact ListPrec.head h2 _ _
    | tail _ h2 => exact ListPrec.tail _ (ih h2)

theorem listPrec_tri (p q : List (PR S)) : ListPrec p q ∨ p = q ∨ ListPrec q p := by
  induction p generalizing q with
  | nil => cases q with
    | nil => simp
    | cons b bs => exact Or.inl (ListPrec.nil _ _)
  | cons a as ih => cases q with
    | nil => exact Or.inr (Or.inr (ListPrec.nil _ _))
    | cons b bs =>
      rcases idPrec_tri a b with h | rfl | h
      · exact Or.inl (ListPrec.head h _ _)
      · rcases ih bs with h | rfl | h
        · exact Or.inl (ListPrec.tail _ h)
        · simp
        · exact Or.inr (Or.inr (ListPrec.tail _ h))
      · exact Or.inr (Or.inr (ListPrec.head h _ _))

/-- C06: semver precedence is a strict total order on versions, so the gate splits all versions consistently. -/
theorem c06_strict_total_order :
    (∀ v : Ver S, ¬ Prec v v) ∧ (∀ u v w : Ver S, Prec u v → Prec v w → Prec u w) ∧
    (∀ u v : Ver S, Prec u v ∨ u = v ∨ Prec v u) := by
  refine ⟨?_, ?_, ?_⟩
  · intro v h
    unfold Prec at h
    have := listPrec_irrefl v.pre
    rcases h with h | ⟨_, h | ⟨_, h | ⟨_, h1, h2 | h2⟩⟩⟩
    · omega
    · omega
    · omega
    · exact h1 h2
    · exact this h2
  · intro u v w h h'
    unfold Prec at *
    rcases h with h | ⟨e1, h | ⟨e2, h | ⟨e3, h1, h2⟩⟩⟩ <;>
    rcases h' with h' | ⟨e1', h' | ⟨e2', h' | ⟨e3', h1', h2'⟩⟩⟩ <;>
    first
      | (left; omega)
      | (right; refine ⟨by omega, ?_⟩; left; omega)
      | (right; refine ⟨by omega, ?_⟩; right; refine ⟨by omega, ?_⟩; left; omega)
      | skip
    right; refine ⟨by omega, ?_⟩; right; refine ⟨by omega, ?_⟩; right
    refine ⟨by omega, h1, ?_⟩
    rcases h2' with h2' | h2'
    · exact Or.inl h2'
    · rcases h2 with h2 | h2
      · exact absurd h2 h1'
      · exact Or.inr (listPrec_trans h2 h2')
  · intro u v
    obtain ⟨a, b, c, p⟩ := u
    obtain ⟨a', b', c', p'⟩ := v
    unfold Prec
    simp only
    rcases lt_trichotomy a a' with h | rfl | h
    · left; left; exact h
    · rcases lt_trichotomy b b' with h | rfl | h
      · left; right; exact ⟨rfl, Or.inl h⟩
      · rcases lt_trichotomy c c' with h | rfl | h
        · left; right; exact ⟨rfl, Or.inr ⟨rfl, Or.inl h⟩⟩
        · cases p with
          | nil => cases p' with
            | nil => simp
            | cons y ys => right; right; simp
          | cons x xs => cases p' with
            | nil => left; simp
            | cons y ys =>
              rcases listPrec_tri (x :: xs) (y :: ys) with h | h | h
              · left; simp [h]
              · right; left; rw [h]
              · right; right; simp [h]
        · right; right; right; exact ⟨rfl, Or.inr ⟨rfl, Or.inl h⟩⟩
      · right; right; right; exact ⟨rfl, Or.inl h⟩
    · right; right; left; exact h

/-- C06: exactly the versions not preceding 0.14.0 use the leader based protocol. -/
theorem c06_join_mode {T : Type} (parse : T → Option (Ver S)) (gate v : T) (vv : Ver S)
    (hg : parse gate = some newJoinParty) (hv : parse v = some vv) :
    joinMode parse gate v = .ok .withLeader ↔ vv = ⟨0, 14, 0, []⟩ ∨ Prec ⟨0, 14, 0, []⟩ vv := by
  show _ ↔ vv = newJoinParty ∨ Prec newJoinParty vv
  have htot := c06_strict_total_order (S := S)
  obtain ⟨r, hr, hiff⟩ := c06_version_check_exact parse v gate vv newJoinParty hv hg
  unfold joinMode
  rw [hr]
  cases r
  · simp only [true_iff]
    have hn : ¬ Prec vv newJoinParty := fun h => by simpa using hiff.2 h
    rcases htot.2.2 vv newJoinParty with h | h | h
    · exact absurd h hn
    · exact Or.inl h
    · exact Or.inr h
  · have hp := hiff.1 rfl
    constructor
    · intro h; cases h
    · rintro (h | h)
      · rw [h] at hp; exact absurd hp (htot.1 _)
      · exact absurd (htot.2.1 _ _ _ hp h) (htot.1 _)

/-- Witnesses: 0.13.0 and 0.14.0-rc.1 are old, 0.14.0 and 1.0.0 are new. -/
example : VersionLTCheck (S := Nat) some ⟨0, 13, 0, []⟩ newJoinParty = .ok true := by decide
example : VersionLTCheck (S := Nat) some ⟨0, 14, 0, [.alpha 3, .num 1]⟩ newJoinParty = .ok true := by decide
example : joinMode (S := Nat) some newJoinParty ⟨0, 14, 0, []⟩ = .ok .withLeader := by decide
example : joinMode (S := Nat) some newJoinParty ⟨1, 0, 0, []⟩ = .ok .withLeader := by decide

end Verif.Props.C06
