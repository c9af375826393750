import Verif.Model.FlagText
import Verif.Spec.FlagText
import Verif.Lemmas.Threshold
import Mathlib.Data.List.TakeWhile
import Verif.Props.C124

/-!
# C144: numbers and times on the command line
-/
set_option linter.unusedSectionVars false
namespace Verif.Props.FlagText
open Verif.FlagText
open Verif.Spec.FlagText (Digit Grouped Letter Unsigned Signed)
open Verif.Threshold (fl fl_nat fl_double fl_err ulp)

/-! ## numbers -/

theorem digit_of_nat : ∀ d < 36, "0123456789abcdefghijklmnopqrstuvwxyz".toList[d]?.bind digit = some d ∧
    "0123456789ABCDEFGHIJKLMNOPQRSTUVWXYZ".toList[d]?.bind digit = some d := by decide +kernel

/-- the letters of a digit -/
def shown (d : Nat) (c : Char) : Bool :=
  "0123456789abcdefghijklmnopqrstuvwxyz".toList[d]? == some c || "0123456789ABCDEFGHIJKLMNOPQRSTUVWXYZ".toList[d]? == some c

theorem digit_table : ∀ n < 123, (digit (Char.ofNat n)).all (fun d => shown d (Char.ofNat n)) = true := by decide +kernel

theorem digit_iff (c : Char) (d : Nat) : digit c = some d ↔ Digit c d := by
  constructor
  · intro h
    have hc : c.toNat < 123 := by
      have hz : ('z' : Char).toNat = 122 := rfl
      have h9 : ('9' : Char).toNat = 57 := rfl
      have hZ : ('Z' : Char).toNat = 90 := rfl
      unfold digit at h
      split at h
      · next h' => have : c.toNat ≤ ('9' : Char).toNat := h'.2
                   omega
      · split at h
        · next h' => have : c.toNat ≤ ('z' : Char).toNat := h'.2
                     omega
        · split at h
          · next h' => have : c.toNat ≤ ('Z' : Char).toNat := h'.2
                       omega
          · cases h
    have := digit_table c.toNat hc
    rw [Char.ofNat_toNat, h, Option.all_some, shown, Bool.or_eq_true, beq_iff_eq, beq_iff_eq] at this
    exact this
  · intro h
    have hd : d < 36 := by
      rcases h with h | h
      · have := (List.getElem?_eq_some_iff.1 h).1; exact this
      · have := (List.getElem?_eq_some_iff.1 h).1; exact this
    have := digit_of_nat d hd
    rcases h with h | h
    · rw [h] at this; exact this.1
    · rw [h] at this; exact this.2

theorem digit_under : digit '_' = none := by decide

/-- what may follow a digit -/
def Tail (base : Nat) (s : Str) (ds : List Nat) : Prop := (s = [] ∧ ds = []) ∨ Grouped base s ds ∨ ∃ r, s = '_' :: r ∧ Grouped base r ds

theorem grouped_cons (base : Nat) (c : Char) (r : Str) (ds : List Nat) :
    Grouped base (c :: r) ds ↔ ∃ d ds', ds = d :: ds' ∧ Digit c d ∧ d < base ∧ Tail base r ds' := by
  constructor
  · intro h
    cases h with
    | one h1 h2 => exact ⟨_, [], rfl, h1, h2, .inl ⟨rfl, rfl⟩⟩
    | next h1 h2 h3 => exact ⟨_, _, rfl, h1, h2, .inr (.inl h3)⟩
    | under h1 h2 h3 => exact ⟨_, _, rfl, h1, h2, .inr (.inr ⟨_, rfl, h3⟩)⟩
  · rintro ⟨d, ds', rfl, h1, h2, h3⟩
    rcases h3 with ⟨rfl, rfl⟩ | h3 | ⟨r', rfl, h3⟩
    · exact .one h1 h2
    · exact .next h1 h2 h3
    · exact .under h1 h2 h3

/-- is a digit of the base seen as a digit by the check of underscores? -/
def Sees (base : Nat) (hex : Bool) : Prop := base ≤ 10 ∨ (base ≤ 16 ∧ hex = true)

theorem sees_digit {base : Nat} {hex : Bool} (hs : Sees base hex) {c : Char} {d : Nat} (hd : digit c = some d) (hb : d < base) :
    ('0' ≤ c ∧ c ≤ '9') ∨ (hex = true ∧ (('a' ≤ c ∧ c ≤ 'f') ∨ ('A' ≤ c ∧ c ≤ 'F'))) := by
  unfold digit at hd
  split at hd
  · next h => exact .inl h
  · have h10 : 10 ≤ d := by
      split at hd
      · cases hd; omega
      · split at hd
        · cases hd; omega
        · cases hd
    rcases hs with hs | ⟨hs, hx⟩
    · omega
    · refine .inr ⟨hx, ?_⟩
      split at hd
      · next h =>
        cases hd
        refine .inl ⟨h.1, ?_⟩
        have h1 : ('a' : Char).toNat ≤ c.toNat := h.1
        have e1 : ('a' : Char).toNat = 97 := rfl
        show c.toNat ≤ ('f' : Char).toNat
        have e2 : ('f' : Char).toNat = 102 := rfl
        omega
      · split at hd
        · next h =>
          cases hd
          refine .inr ⟨h.1, ?_⟩
          have h1 : ('A' : Char).toNat ≤ c.toNat := h.1
          have e1 : ('A' : Char).toNat = 65 := rfl
          show c.toNat ≤ ('F' : Char).toNat
          have e2 : ('F' : Char).toNat = 70 := rfl
          omega
        · cases hd

/-- the number after more digits -/
def more (base : Nat) (n : Nat) (ds : List Nat) : Nat := ds.foldl (fun n d => n * base + d) n

theorem more_eq (base : Nat) (ds : List Nat) : ∀ n, more base n ds = n * base ^ ds.length + Spec.FlagText.value base ds := by
  induction ds with
  | nil => intro n; simp [more, Spec.FlagText.value]
  | cons d ds ih =>
    intro n
    have : more base n (d :: ds) = more base (n * base + d) ds := rfl
    rw [this, ih]
    simp only [Spec.FlagText.value, List.reverse_cons, Nat.ofDigits_append, Nat.ofDigits_singleton, List.length_reverse, List.length_cons]
    ring

theorem read_cons {base : Nat} {hex : Bool} (hs : Sees base hex) {c : Char} {d : Nat} (hd : digit c = some d) (hb : d < base) (r : Str) (n : Nat) (i : Seen) :
    digits base (c :: r) n = digits base r (n * base + d) ∧ underscores hex (c :: r) i = underscores hex r .digit := by
  have hne : c ≠ '_' := by rintro rfl; rw [digit_under] at hd; cases hd
  constructor
  · rw [digits, if_neg hne, hd]
    simp only
    rw [if_pos hb]
  · rw [underscores, if_pos (sees_digit hs hd hb)]

/-- the loops accept exactly the grouped digits -/
theorem read_iff {base : Nat} {hex : Bool} (hs : Sees base hex) (s : Str) : ∀ (n m : Nat),
    ((digits base s n = some m ∧ underscores hex s .digit = true) ↔ ∃ ds, Tail base s ds ∧ m = more base n ds) ∧
    (∀ i, i = Seen.under ∨ i = Seen.start → s ≠ [] ∨ i = .under → ((digits base s n = some m ∧ underscores hex s i = true) ↔ ∃ ds, Grouped base s ds ∧ m = more base n ds)) := by
  induction s with
  | nil =>
    intro n m
    refine ⟨?_, ?_⟩
    · constructor
      · rintro ⟨h, -⟩
        cases h
        exact ⟨[], .inl ⟨rfl, rfl⟩, rfl⟩
      · rintro ⟨ds, h, rfl⟩
        rcases h with ⟨-, rfl⟩ | h | ⟨r, h, -⟩
        · exact ⟨rfl, rfl⟩
        · cases h
        · cases h
    · intro i _ h
      rcases h with h | rfl
      · exact absurd rfl h
      · constructor
        · rintro ⟨-, h⟩; exact absurd h (by simp [underscores])
        · rintro ⟨ds, h, -⟩; cases h
  | cons c r ih =>
    intro n m
    by_cases hu : c = '_'
    · subst hu
      have hng : ∀ ds, ¬ Grouped base ('_' :: r) ds := by
        intro ds h
        obtain ⟨d, _, _, hd, _⟩ := (grouped_cons _ _ _ _).1 h
        rw [← digit_iff, digit_under] at hd
        cases hd
      have hnd : ¬ (('0' ≤ '_' ∧ '_' ≤ '9') ∨ (hex = true ∧ (('a' ≤ '_' ∧ '_' ≤ 'f') ∨ ('A' ≤ '_' ∧ '_' ≤ 'F')))) := by
        have : ¬ (('0' ≤ '_' ∧ '_' ≤ '9') ∨ (('a' ≤ '_' ∧ '_' ≤ 'f') ∨ ('A' ≤ '_' ∧ '_' ≤ 'F'))) := by decide
        tauto
      refine ⟨?_, ?_⟩
      · have e1 : digits base ('_' :: r) n = digits base r n := by rw [digits, if_pos rfl]
        have e2 : underscores hex ('_' :: r) .digit = underscores hex r .under := by
          rw [underscores, if_neg hnd, if_pos rfl, if_neg (by decide)]
        rw [e1, e2, (ih n m).2 .under (.inl rfl) (.inr rfl)]
        constructor
        · rintro ⟨ds, h, e⟩; exact ⟨ds, .inr (.inr ⟨r, rfl, h⟩), e⟩
        · rintro ⟨ds, h, e⟩
          rcases h with ⟨h, -⟩ | h | ⟨r', h, hg⟩
          · cases h
          · exact absurd h (hng ds)
          · cases h; exact ⟨ds, hg, e⟩
      · intro i hi _
        constructor
        · rintro ⟨-, h⟩
          rw [underscores, if_neg hnd, if_pos rfl, if_pos (by rcases hi with rfl | rfl <;> decide)] at h
          cases h
        · rintro ⟨ds, h, -⟩; exact absurd h (hng ds)
    · -- a digit or an error
      have key : ∀ i, (digits base (c :: r) n = some m ∧ underscores hex (c :: r) i = true) ↔ ∃ ds, Grouped base (c :: r) ds ∧ m = more base n ds := by
        intro i
        constructor
        · rintro ⟨h1, h2⟩
          have h1' := h1
          rw [digits, if_neg hu] at h1'
          cases hd : digit c with
          | none => rw [hd] at h1'; cases h1'
          | some d =>
            rw [hd] at h1'
            simp only at h1'
            by_cases hb : d < base
            · obtain ⟨e1, e2⟩ := read_cons hs hd hb r n i
              rw [e1] at h1; rw [e2] at h2
              obtain ⟨ds, ht, e⟩ := (ih (n * base + d) m).1.1 ⟨h1, h2⟩
              exact ⟨d :: ds, (grouped_cons _ _ _ _).2 ⟨d, ds, rfl, (digit_iff c d).1 hd, hb, ht⟩, e⟩
            · rw [if_neg hb] at h1'; cases h1'
        · rintro ⟨ds, hg, e⟩
          obtain ⟨d, ds', rfl, hd, hb, ht⟩ := (grouped_cons _ _ _ _).1 hg
          obtain ⟨e1, e2⟩ := read_cons hs ((digit_iff c d).2 hd) hb r n i
          rw [e1, e2]
          exact (ih (n * base + d) m).1.2 ⟨ds', ht, e⟩
      refine ⟨?_, fun i _ _ => key i⟩
      rw [key]
      constructor
      · rintro ⟨ds, h, e⟩; exact ⟨ds, .inr (.inl h), e⟩
      · rintro ⟨ds, h, e⟩
        rcases h with ⟨h, -⟩ | h | ⟨r', h, -⟩
        · cases h
        · exact ⟨ds, h, e⟩
        · exact absurd (List.cons.inj h).1 hu

theorem no_under {base : Nat} {hex : Bool} (hs : Sees base hex) (s : Str) (h : '_' ∉ s) : ∀ (n m : Nat) (i : Seen), i ≠ .under → digits base s n = some m →
    underscores hex s i = true := by
  induction s with
  | nil => intro n m i hi _; simp [underscores, hi]
  | cons c r ih =>
    intro n m i hi hd
    have hu : c ≠ '_' := fun e => h (e ▸ List.mem_cons_self)
    rw [digits, if_neg hu] at hd
    cases hc : digit c with
    | none => rw [hc] at hd; cases hd
    | some d =>
      rw [hc] at hd
      simp only at hd
      by_cases hb : d < base
      · rw [if_pos hb] at hd
        rw [underscores, if_pos (sees_digit hs hc hb)]
        exact ih (fun hm => h (List.mem_cons_of_mem _ hm)) _ _ _ (by decide) hd
      · rw [if_neg hb] at hd; cases hd

theorem baseOf_iff (p : Char) (b : Nat) : baseOf p = some b ↔ Letter p b := by
  constructor
  · intro h
    unfold baseOf at h
    split at h
    · next h' => cases h; rcases h' with rfl | rfl; exacts [.b, .B]
    · split at h
      · next h' => cases h; rcases h' with rfl | rfl; exacts [.o, .O]
      · split at h
        · next h' => cases h; rcases h' with rfl | rfl; exacts [.x, .X]
        · cases h
  · intro h
    cases h <;> decide

theorem letter_sees {p : Char} {b : Nat} (h : Letter p b) : Sees b (decide (b = 16)) := by
  cases h <;> simp [Sees]

theorem letter_no_digit {p : Char} {b : Nat} (h : Letter p b) : ∀ d, digit p = some d → ¬ d < 8 := by
  cases h <;> (intro d hd hb; revert hd; decide +revert)

theorem digits_of_ok {s : Str} {n : Nat} (h : parseUint s = some n) : s ≠ [] ∧ digits (split s).1 (split s).2 0 = some n ∧ n < 2 ^ 64 ∧ ('_' ∈ s → underscoreOK s = true) := by
  unfold parseUint at h
  split at h
  · cases h
  · next hne =>
    split at h
    · cases h
    · next m hm =>
      split at h
      · next hlt =>
        split at h
        · cases h
        · next hu =>
          cases h
          refine ⟨hne, hm, hlt, fun hs => ?_⟩
          cases hb : underscoreOK s
          · exact absurd ⟨hs, hb⟩ hu
          · rfl
      · cases h

theorem ok_of_digits {s : Str} {n : Nat} (hne : s ≠ []) (h1 : digits (split s).1 (split s).2 0 = some n) (h2 : n < 2 ^ 64) (h3 : underscoreOK s = true) : parseUint s = some n := by
  unfold parseUint
  rw [if_neg hne, h1]
  simp only
  rw [if_pos h2, if_neg (by rw [h3]; simp)]

theorem sees10 : Sees 10 false := .inl (le_refl _)
theorem sees8 : Sees 8 false := .inl (by omega)

theorem under_zero (r : Str) : underscores false ('0' :: r) .start = underscores false r .digit := by
  rw [underscores, if_pos (.inl (by decide))]

/-- how the parts of a text are looked at -/
theorem unsigned_iff (s : Str) (n : Nat) (hn : n < 2 ^ 64) : parseUint s = some n ↔ Unsigned s n := by
  match s with
  | [] => exact ⟨fun h => absurd rfl (digits_of_ok h).1, fun h => by cases h⟩
  | c :: r =>
    by_cases hc : c = '0'
    · subst hc
      match r with
      | [] =>
        constructor
        · intro h
          obtain ⟨-, h, -, -⟩ := digits_of_ok h
          have : (some 0 : Option Nat) = some n := h
          cases this
          exact .zero
        · intro h
          have : n = 0 := by
            generalize hs : (['0'] : Str) = t at h
            cases h with
            | decimal hne _ => cases hs; exact absurd rfl hne
            | zero => rfl
            | octal h => cases hs; cases h
            | octalUnder _ => cases hs
            | letter _ _ => cases hs
            | letterUnder _ _ => cases hs
          subst this
          decide
      | p :: r' =>
        cases hb : baseOf p with
        | some b =>
          have hl := (baseOf_iff p b).1 hb
          match r' with
          | [] =>
            constructor
            · intro h
              obtain ⟨-, h, -, -⟩ := digits_of_ok h
              have h' : digits 8 [p] 0 = some n := h
              have hp : p ≠ '_' := by rintro rfl; cases hl
              rw [digits, if_neg hp] at h'
              cases hd : digit p with
              | none => rw [hd] at h'; cases h'
              | some d =>
                rw [hd] at h'
                simp only at h'
                rw [if_neg (letter_no_digit hl d hd)] at h'
                cases h'
            · intro h
              generalize hs : (['0', p] : Str) = t at h
              cases h with
              | decimal hne _ => cases hs; exact absurd rfl hne
              | zero => cases hs
              | octal h =>
                cases hs
                obtain ⟨d, _, _, hd, h8, _⟩ := (grouped_cons _ _ _ _).1 h
                exact absurd h8 (letter_no_digit hl d ((digit_iff _ _).2 hd))
              | octalUnder h => cases hs; cases hl
              | letter _ h => cases hs; cases h
              | letterUnder _ _ => cases hs
          | d :: r'' =>
            have e1 : split ('0' :: p :: d :: r'') = (b, d :: r'') := by
              rw [split]; simp [hb]
            have e2 : underscoreOK ('0' :: p :: d :: r'') = underscores (decide (b = 16)) (d :: r'') .digit := by
              rw [underscoreOK]; simp [hb]
            have hk := ((read_iff (letter_sees hl) (d :: r'')) 0 n).1
            constructor
            · intro h
              obtain ⟨-, h1, -, h3⟩ := digits_of_ok h
              rw [e1] at h1
              rw [e2] at h3
              have h4 : underscores (decide (b = 16)) (d :: r'') .digit = true := by
                by_cases hu : '_' ∈ d :: r''
                · exact h3 (List.mem_cons_of_mem _ (List.mem_cons_of_mem _ hu))
                · exact no_under (letter_sees hl) _ hu _ _ _ (by decide) h1
              obtain ⟨ds, ht, e⟩ := hk.1 ⟨h1, h4⟩
              rw [more_eq] at e
              simp only [Nat.zero_mul, Nat.zero_add] at e
              subst e
              rcases ht with ⟨h, -⟩ | h | ⟨t, h, hg⟩
              · cases h
              · exact .letter hl h
              · cases h; exact .letterUnder hl hg
            · intro h
              have : ∃ ds, Tail b (d :: r'') ds ∧ n = more b 0 ds := by
                generalize hs : ('0' :: p :: d :: r'' : Str) = t at h
                cases h with
                | decimal hne _ => cases hs; exact absurd rfl hne
                | zero => cases hs
                | octal h =>
                  cases hs
                  obtain ⟨d, _, _, hd, h8, _⟩ := (grouped_cons _ _ _ _).1 h
                  exact absurd h8 (letter_no_digit hl d ((digit_iff _ _).2 hd))
                | octalUnder h => cases hs; cases hl
                | letter hl' h =>
                  cases hs
                  have : baseOf p = some _ := (baseOf_iff _ _).2 hl'
                  rw [hb] at this
                  cases this
                  exact ⟨_, .inr (.inl h), by rw [more_eq]; simp⟩
                | letterUnder hl' h =>
                  cases hs
                  have : baseOf p = some _ := (baseOf_iff _ _).2 hl'
                  rw [hb] at this
                  cases this
                  exact ⟨_, .inr (.inr ⟨_, rfl, h⟩), by rw [more_eq]; simp⟩
              obtain ⟨h1, h2⟩ := hk.2 this
              exact ok_of_digits (by simp) (by rw [e1]; exact h1) hn (by rw [e2]; exact h2)
        | none =>
          have e1 : split ('0' :: p :: r') = (8, p :: r') := by
            cases r' with
            | nil => rfl
            | cons d r'' => rw [split]; simp [hb]
          have e2 : underscoreOK ('0' :: p :: r') = underscores false (p :: r') .digit := by
            rw [underscoreOK]; simp only [if_true, hb]; exact under_zero _
          have hk := ((read_iff sees8 (p :: r')) 0 n).1
          constructor
          · intro h
            obtain ⟨-, h1, -, h3⟩ := digits_of_ok h
            rw [e1] at h1
            rw [e2] at h3
            have h4 : underscores false (p :: r') .digit = true := by
              by_cases hu : '_' ∈ p :: r'
              · exact h3 (List.mem_cons_of_mem _ hu)
              · exact no_under sees8 _ hu _ _ _ (by decide) h1
            obtain ⟨ds, ht, e⟩ := hk.1 ⟨h1, h4⟩
            rw [more_eq] at e
            simp only [Nat.zero_mul, Nat.zero_add] at e
            subst e
            rcases ht with ⟨h, -⟩ | h | ⟨t, h, hg⟩
            · cases h
            · exact .octal h
            · cases h; exact .octalUnder hg
          · intro h
            have : ∃ ds, Tail 8 (p :: r') ds ∧ n = more 8 0 ds := by
              generalize hs : ('0' :: p :: r' : Str) = t at h
              cases h with
              | decimal hne _ => cases hs; exact absurd rfl hne
              | zero => cases hs
              | octal h => cases hs; exact ⟨_, .inr (.inl h), by rw [more_eq]; simp⟩
              | octalUnder h => cases hs; exact ⟨_, .inr (.inr ⟨_, rfl, h⟩), by rw [more_eq]; simp⟩
              | letter hl' h => cases hs; rw [(baseOf_iff _ _).2 hl'] at hb; cases hb
              | letterUnder hl' h => cases hs; rw [(baseOf_iff _ _).2 hl'] at hb; cases hb
            obtain ⟨h1, h2⟩ := hk.2 this
            exact ok_of_digits (by simp) (by rw [e1]; exact h1) hn (by rw [e2]; exact h2)
    · have e1 : split (c :: r) = (10, c :: r) := by unfold split; simp only [if_neg hc]
      have e2 : underscoreOK (c :: r) = underscores false (c :: r) .start := by
        cases r with
        | nil => rfl
        | cons p r' => rw [underscoreOK, if_neg hc]
      have hk := ((read_iff sees10 (c :: r)) 0 n).2 .start (.inr rfl) (.inl (by simp))
      constructor
      · intro h
        obtain ⟨-, h1, -, h3⟩ := digits_of_ok h
        rw [e1] at h1
        rw [e2] at h3
        have h4 : underscores false (c :: r) .start = true := by
          by_cases hu : '_' ∈ c :: r
          · exact h3 hu
          · exact no_under sees10 _ hu _ _ _ (by decide) h1
        obtain ⟨ds, hg, e⟩ := hk.1 ⟨h1, h4⟩
        rw [more_eq] at e
        simp only [Nat.zero_mul, Nat.zero_add] at e
        subst e
        exact .decimal hc hg
      · intro h
        have : ∃ ds, Grouped 10 (c :: r) ds ∧ n = more 10 0 ds := by
          generalize hs : (c :: r : Str) = t at h
          cases h with
          | decimal hne h => exact ⟨_, h, by rw [more_eq]; simp⟩
          | zero => cases hs; exact absurd rfl hc
          | octal h => cases hs; exact absurd rfl hc
          | octalUnder h => cases hs; exact absurd rfl hc
          | letter hl' h => cases hs; exact absurd rfl hc
          | letterUnder hl' h => cases hs; exact absurd rfl hc
        obtain ⟨h1, h2⟩ := hk.2 this
        exact ok_of_digits (by simp) (by rw [e1]; exact h1) hn (by rw [e2]; exact h2)

theorem unsigned_head {c : Char} {r : Str} {n : Nat} (h : Unsigned (c :: r) n) : c ≠ '-' ∧ c ≠ '+' := by
  have hd : ∃ d, digit c = some d := by
    generalize hs : (c :: r : Str) = t at h
    cases h with
    | decimal hne h =>
      cases hs
      obtain ⟨d, _, _, hd, _⟩ := (grouped_cons _ _ _ _).1 h
      exact ⟨d, (digit_iff _ _).2 hd⟩
    | zero => cases hs; exact ⟨0, by decide⟩
    | octal h => cases hs; exact ⟨0, by decide⟩
    | octalUnder h => cases hs; exact ⟨0, by decide⟩
    | letter hl' h => cases hs; exact ⟨0, by decide⟩
    | letterUnder hl' h => cases hs; exact ⟨0, by decide⟩
  obtain ⟨d, hd⟩ := hd
  constructor <;> (rintro rfl; revert hd; decide +revert)

/-- **C144**, numbers: a text is read as the number `v` exactly if it says `v` in Go's notation and `v` fits into 64 bits. -/
theorem c144_number (s : Str) (v : Int) : parseInt s = some v ↔ Signed s v ∧ -2 ^ 63 ≤ v ∧ v < 2 ^ 63 := by
  match s with
  | [] =>
    constructor
    · intro h; cases h
    · rintro ⟨h, -⟩
      generalize hs : ([] : Str) = t at h
      cases h with
      | plain h => subst hs; cases h
      | plus h => cases hs
      | minus h => cases hs
  | c :: r =>
    by_cases hm : c = '-'
    · subst hm
      rw [parseInt, if_pos rfl]
      constructor
      · intro h
        split at h
        · cases h
        · next n hn =>
          split at h
          · next hle =>
            cases h
            exact ⟨.minus ((unsigned_iff r n (by omega)).1 hn), by omega, by omega⟩
          · cases h
      · rintro ⟨h, h1, h2⟩
        generalize hs : ('-' :: r : Str) = t at h
        cases h with
        | plain h => subst hs; exact absurd rfl (unsigned_head h).1
        | plus h => cases hs
        | @minus s n h =>
          cases hs
          rw [(unsigned_iff r n (by omega)).2 h]
          simp only
          rw [if_pos (by omega)]
    · rw [parseInt, if_neg hm]
      by_cases hp : c = '+'
      · subst hp
        rw [if_pos rfl]
        constructor
        · intro h
          split at h
          · cases h
          · next n hn =>
            split at h
            · next hle =>
              cases h
              exact ⟨.plus ((unsigned_iff r n (by omega)).1 hn), by omega, by omega⟩
            · cases h
        · rintro ⟨h, h1, h2⟩
          generalize hs : ('+' :: r : Str) = t at h
          cases h with
          | plain h => subst hs; exact absurd rfl (unsigned_head h).2
          | minus h => cases hs
          | @plus s n h =>
            cases hs
            rw [(unsigned_iff r n (by omega)).2 h]
            simp only
            rw [if_pos (by omega)]
      · rw [if_neg hp]
        constructor
        · intro h
          split at h
          · cases h
          · next n hn =>
            split at h
            · next hle =>
              cases h
              exact ⟨.plain ((unsigned_iff _ n (by omega)).1 hn), by omega, by omega⟩
            · cases h
        · rintro ⟨h, h1, h2⟩
          generalize hs : (c :: r : Str) = t at h
          cases h with
          | minus h => cases hs; exact absurd rfl hm
          | plus h => cases hs; exact absurd rfl hp
          | @plain s n h =>
            subst hs
            rw [(unsigned_iff _ n (by omega)).2 h]
            simp only
            rw [if_pos (by omega)]

example : parseInt "6668".toList = some 6668 ∧ parseInt "0x1A_0c".toList = some 6668 ∧ parseInt "-0b11".toList = some (-3) ∧ parseInt "6_6__68".toList = none ∧
    parseInt "9223372036854775808".toList = none ∧ parseInt "".toList = none ∧ parseInt "0_".toList = none := by decide +kernel

/-- C144: a leading zero makes a number octal: the ports `06667` and `6667` are different ones, and `06668` is refused. -/
theorem c144_octal : parseInt "06667".toList = some 3511 ∧ parseInt "6667".toList = some 6667 ∧ parseInt "06668".toList = none := by decide +kernel

/-! ## durations -/

open Verif.Spec.FlagText (Amount TimeUnit Sign num total)
open Verif.Json (decimal)

theorem decimal_num (s : Str) : decimal s = num s := by
  have h : ∀ (s : Str) (n : Nat), s.foldl (fun a c => a * 10 + (c.toNat - 48)) n = n * 10 ^ s.length + num s := by
    intro s
    induction s with
    | nil => intro n; simp [num]
    | cons c s ih =>
      intro n
      rw [List.foldl_cons, ih]
      simp only [num, List.reverse_cons, List.map_append, List.map_cons, List.map_nil, Nat.ofDigits_append, Nat.ofDigits_singleton, List.length_map, List.length_reverse,
        List.length_cons]
      ring
  unfold decimal
  rw [h]; simp

theorem digit_le {c : Char} (h : c.isDigit = true) : c.toNat - 48 ≤ 9 := by
  have : 48 ≤ c.toNat ∧ c.toNat ≤ 57 := by
    simp only [Char.isDigit, Bool.and_eq_true, decide_eq_true_eq] at h
    exact ⟨by have := h.1; exact this, by have := h.2; exact this⟩
  omega

theorem num_cons (c : Char) (s : Str) : num (c :: s) = (c.toNat - 48) * 10 ^ s.length + num s := by
  simp only [num, List.reverse_cons, List.map_append, List.map_cons, List.map_nil, Nat.ofDigits_append, Nat.ofDigits_singleton, List.length_map, List.length_reverse]
  ring

theorem num_lt {s : Str} (h : ∀ c ∈ s, c.isDigit = true) : num s < 10 ^ s.length := by
  induction s with
  | nil => simp [num]
  | cons c s ih =>
    have h1 := digit_le (h c List.mem_cons_self)
    have h2 := ih fun c hc => h c (List.mem_cons_of_mem _ hc)
    rw [num_cons, List.length_cons, pow_succ]
    have : (c.toNat - 48) * 10 ^ s.length ≤ 9 * 10 ^ s.length := Nat.mul_le_mul_right _ h1
    omega

theorem unit_names : ∀ u : TimeUnit, unitOf u.text = some u.nanos := by
  intro u; cases u <;> decide

theorem unit_of {t : Str} {n : Nat} (h : unitOf t = some n) : ∃ u : TimeUnit, t = u.text ∧ n = u.nanos := by
  unfold unitOf at h
  cases hf : units.find? (fun p => p.1 = t) with
  | none => rw [hf] at h; cases h
  | some p =>
    rw [hf] at h
    cases h
    have h1 : p.1 = t := by simpa using List.find?_some hf
    have h2 := List.mem_of_find?_eq_some hf
    have : ∀ p ∈ units, ∃ u : TimeUnit, p.1 = u.text ∧ p.2 = u.nanos := by
      intro p hp
      simp only [units, List.mem_cons, List.not_mem_nil, or_false] at hp
      rcases hp with rfl | rfl | rfl | rfl | rfl | rfl | rfl | rfl
      · exact ⟨.ns, by decide, rfl⟩
      · exact ⟨.us, by decide, rfl⟩
      · exact ⟨.us', by decide, rfl⟩
      · exact ⟨.us'', by decide, rfl⟩
      · exact ⟨.ms, by decide, rfl⟩
      · exact ⟨.s, by decide, rfl⟩
      · exact ⟨.m, by decide, rfl⟩
      · exact ⟨.h, by decide, rfl⟩
    obtain ⟨u, e1, e2⟩ := this p h2
    exact ⟨u, h1 ▸ e1, e2⟩

theorem unit_plain : ∀ (u : TimeUnit), u.text ≠ [] ∧ ∀ c ∈ u.text, inNumber c = false := by
  intro u; cases u <;> decide

theorem unit_pos (u : TimeUnit) : 0 < u.nanos ∧ u.nanos ≤ 3600000000000 := by cases u <;> decide

/-- what may follow an amount -/
def Rest (s : Str) : Prop := s = [] ∨ ∃ c r, s = c :: r ∧ inNumber c = true

theorem amount_text (v ds : Str) (u : TimeUnit) (rest : Str) (hr : Rest rest) :
    amount v ds (u.text ++ rest) = if num v * u.nanos + fracNanos ds u.nanos < 2 ^ 63 then some (num v * u.nanos + fracNanos ds u.nanos, rest) else none := by
  have ht : (u.text ++ rest).takeWhile (fun c => !inNumber c) = u.text := by
    rw [List.takeWhile_append_of_pos (by intro c hc; rw [(unit_plain u).2 c hc]; rfl)]
    rcases hr with rfl | ⟨c, r, rfl, hc⟩
    · simp
    · simp [hc]
  have hd : (u.text ++ rest).dropWhile (fun c => !inNumber c) = rest := by
    rw [List.dropWhile_append_of_pos (by intro c hc; rw [(unit_plain u).2 c hc]; rfl)]
    rcases hr with rfl | ⟨c, r, rfl, hc⟩
    · simp
    · simp [hc]
  unfold amount
  rw [ht, hd, if_neg (unit_plain u).1, unit_names u]
  simp only
  rw [decimal_num]
  split
  · next h =>
    rw [if_neg]
    have := Nat.lt_mul_of_div_lt h (unit_pos u).1
    have e : u.nanos * num v = num v * u.nanos := Nat.mul_comm _ _
    omega
  · rfl

theorem digit_in {c : Char} (h : c.isDigit = true) : inNumber c = true := by simp [inNumber, h]

theorem tw {p : Str} (h : ∀ c ∈ p, c.isDigit = true) (x : Char) (hx : x.isDigit = false) (r : Str) :
    (p ++ x :: r).takeWhile Char.isDigit = p ∧ (p ++ x :: r).dropWhile Char.isDigit = x :: r := by
  constructor
  · rw [List.takeWhile_append_of_pos h]; simp [hx]
  · rw [List.dropWhile_append_of_pos h]; simp [hx]

/-- the nanoseconds that the program makes of an amount -/
def worth (a : Amount) : Nat := num a.whole * a.unit.nanos + fracNanos a.decimals a.unit.nanos

theorem unit_cons (u : TimeUnit) : ∃ x t, u.text = x :: t ∧ x.isDigit = false ∧ x ≠ '.' := by
  cases u <;> exact ⟨_, _, rfl, by decide, by decide⟩

theorem worth_big {a : Amount} (h : 2 ^ 63 ≤ num a.whole) : ¬ worth a < 2 ^ 63 := by
  have := (unit_pos a.unit).1
  have h2 : num a.whole * 1 ≤ num a.whole * a.unit.nanos := Nat.mul_le_mul_left _ this
  unfold worth
  omega

theorem term_text (a : Amount) (ha : a.Good) (rest : Str) (hr : Rest rest) : term (a.text ++ rest) = if worth a < 2 ^ 63 then some (worth a, rest) else none := by
  obtain ⟨x, t, hx, hxd, hxp⟩ := unit_cons a.unit
  obtain ⟨w, f, u⟩ := a
  cases f with
  | none =>
    have hw : w ≠ [] := by
      rcases ha.some with h | h
      · exact h
      · exact absurd rfl h
    have hwd : ∀ c ∈ w, c.isDigit = true := ha.whole
    obtain ⟨c, w', rfl⟩ := List.exists_cons_of_ne_nil hw
    have hx' : u.text = x :: t := hx
    have e : (Amount.mk (c :: w') none u).text ++ rest = c :: (w' ++ (x :: (t ++ rest))) := by
      simp [Amount.text, hx']
    have e0 : c :: (w' ++ (x :: (t ++ rest))) = (c :: w') ++ x :: (t ++ rest) := rfl
    obtain ⟨h1, h2⟩ := tw hwd x hxd (t ++ rest)
    rw [e, term, if_neg (by rw [digit_in (hwd c List.mem_cons_self)]; simp), e0, h1, h2]
    simp only
    rw [if_neg hxp, decimal_num]
    have e3 : x :: (t ++ rest) = u.text ++ rest := by rw [hx']; rfl
    rw [e3, amount_text _ _ _ _ hr]
    by_cases hb : 2 ^ 63 ≤ num (c :: w')
    · rw [if_pos hb, if_neg (worth_big (a := ⟨c :: w', none, u⟩) hb)]
    · rw [if_neg (by omega)]; rfl
  | some f =>
    have hwd : ∀ c ∈ w, c.isDigit = true := ha.whole
    have hfd : ∀ c ∈ f, c.isDigit = true := ha.frac
    have hx' : u.text = x :: t := hx
    have hne : ¬ (w = [] ∧ f = []) := by
      rintro ⟨rfl, rfl⟩
      rcases ha.some with h | h <;> exact absurd rfl h
    have e : (Amount.mk w (some f) u).text ++ rest = w ++ '.' :: (f ++ x :: (t ++ rest)) := by
      simp [Amount.text, hx']
    obtain ⟨h1, h2⟩ := tw hwd '.' (by decide) (f ++ x :: (t ++ rest))
    obtain ⟨h3, h4⟩ := tw hfd x hxd (t ++ rest)
    rw [e]
    have hc : ∃ c r, w ++ '.' :: (f ++ x :: (t ++ rest)) = c :: r ∧ inNumber c = true := by
      cases w with
      | nil => exact ⟨'.', _, rfl, by decide⟩
      | cons c w' => exact ⟨c, _, rfl, digit_in (hwd c List.mem_cons_self)⟩
    obtain ⟨c, r, ec, hc⟩ := hc
    rw [ec, term, if_neg (by rw [hc]; simp), ← ec, h1, h2]
    simp only
    rw [if_pos trivial, decimal_num, h3, h4, if_neg hne]
    have e3 : x :: (t ++ rest) = u.text ++ rest := by rw [hx']; rfl
    rw [e3, amount_text _ _ _ _ hr]
    by_cases hb : 2 ^ 63 ≤ num w
    · rw [if_pos hb, if_neg (worth_big (a := ⟨w, some f, u⟩) hb)]
    · rw [if_neg (by omega)]; rfl

theorem text_head (a : Amount) (ha : a.Good) : ∃ c r, a.text = c :: r ∧ inNumber c = true := by
  obtain ⟨w, f, u⟩ := a
  cases w with
  | cons c w' => exact ⟨c, _, rfl, digit_in (ha.whole c List.mem_cons_self)⟩
  | nil =>
    cases f with
    | none => rcases ha.some with h | h <;> exact absurd rfl h
    | some f => exact ⟨'.', _, rfl, by decide⟩

theorem rest_texts (l : List Amount) (hl : ∀ a ∈ l, a.Good) : Rest (l.flatMap Amount.text) := by
  cases l with
  | nil => exact .inl rfl
  | cons a l =>
    obtain ⟨c, r, e, h⟩ := text_head a (hl a List.mem_cons_self)
    exact .inr ⟨c, r ++ l.flatMap Amount.text, by rw [List.flatMap_cons, e]; rfl, h⟩

theorem terms_text (l : List Amount) (hl : ∀ a ∈ l, a.Good) : ∀ (k d : Nat), l.length ≤ k → d < 2 ^ 63 →
    terms k (l.flatMap Amount.text) d = if d + (l.map worth).sum < 2 ^ 63 then some (d + (l.map worth).sum) else none := by
  induction l with
  | nil =>
    intro k d _ hd
    have : terms k [] d = some d := by cases k <;> rfl
    simp only [List.flatMap_nil, this, List.map_nil, List.sum_nil, Nat.add_zero]
    rw [if_pos hd]
  | cons a l ih =>
    intro k d hk hd
    obtain ⟨c, r, e, hc⟩ := text_head a (hl a List.mem_cons_self)
    have ht := term_text a (hl a List.mem_cons_self) (l.flatMap Amount.text) (rest_texts l fun x hx => hl x (List.mem_cons_of_mem _ hx))
    cases k with
    | zero => simp at hk
    | succ k =>
      have e' : (a :: l).flatMap Amount.text = c :: (r ++ l.flatMap Amount.text) := by rw [List.flatMap_cons, e]; rfl
      rw [e] at ht
      rw [e', terms]
      rw [show (c :: r) ++ l.flatMap Amount.text = c :: (r ++ l.flatMap Amount.text) from rfl] at ht
      rw [ht, List.map_cons, List.sum_cons]
      by_cases hw : worth a < 2 ^ 63
      · rw [if_pos hw]
        simp only
        by_cases hs : d + worth a < 2 ^ 63
        · rw [if_pos hs, ih (fun x hx => hl x (List.mem_cons_of_mem _ hx)) k _ (by simpa using hk) hs, Nat.add_assoc]
        · rw [if_neg hs, if_neg (by omega)]
      · rw [if_neg hw]
        simp only
        rw [if_neg (by omega)]

theorem texts_length (l : List Amount) (hl : ∀ a ∈ l, a.Good) : l.length ≤ (l.flatMap Amount.text).length := by
  induction l with
  | nil => simp
  | cons a l ih =>
    obtain ⟨c, r, e, hc⟩ := text_head a (hl a List.mem_cons_self)
    have := ih fun x hx => hl x (List.mem_cons_of_mem _ hx)
    rw [List.flatMap_cons, List.length_append, List.length_cons, e, List.length_cons]
    omega

theorem not_sign {c : Char} (h : inNumber c = true) : c ≠ '-' ∧ c ≠ '+' := by
  constructor <;> (rintro rfl; revert h; decide)

theorem magnitude_text (l : List Amount) (hl : ∀ a ∈ l, a.Good) (hne : l ≠ []) :
    magnitude (l.flatMap Amount.text) = if (l.map worth).sum < 2 ^ 63 then some (l.map worth).sum else none := by
  have h0 : l.flatMap Amount.text ≠ ['0'] := by
    intro e
    have ht := terms_text l hl 1
    obtain ⟨a, l', rfl⟩ := List.exists_cons_of_ne_nil hne
    obtain ⟨x, t, hx, hxd, -⟩ := unit_cons a.unit
    have : x ∈ ((a :: l').flatMap Amount.text) := by
      rw [List.flatMap_cons, Amount.text, hx]; simp
    rw [e] at this
    simp only [List.mem_singleton] at this
    subst this
    revert hxd; decide
  have h1 : l.flatMap Amount.text ≠ [] := by
    intro e
    have := texts_length l hl
    rw [e] at this
    exact hne (List.length_eq_zero_iff.1 (by simpa using this))
  unfold magnitude
  rw [if_neg h0, if_neg h1, terms_text l hl _ 0 (texts_length l hl) (by norm_num)]
  simp

theorem duration_text (sg : Sign) (l : List Amount) (hl : ∀ a ∈ l, a.Good) (hne : l ≠ []) :
    parseDuration (sg.text ++ l.flatMap Amount.text) = if (l.map worth).sum < 2 ^ 63 then some (sg.apply ((l.map worth).sum : Nat)) else none := by
  have hm := magnitude_text l hl hne
  obtain ⟨c, r, e, hc⟩ : ∃ c r, l.flatMap Amount.text = c :: r ∧ inNumber c = true := by
    rcases rest_texts l hl with h | h
    · have := texts_length l hl
      rw [h] at this
      exact absurd (List.length_eq_zero_iff.1 (by simpa using this)) hne
    · exact h
  cases sg with
  | none =>
    rw [show Sign.none.text ++ l.flatMap Amount.text = l.flatMap Amount.text from rfl]
    rw [e] at hm ⊢
    rw [parseDuration, if_neg (not_sign hc).1, if_neg (not_sign hc).2, hm]
    split <;> rfl
  | plus =>
    rw [show Sign.plus.text ++ l.flatMap Amount.text = '+' :: l.flatMap Amount.text from rfl, parseDuration, if_neg (by decide), if_pos rfl, hm]
    split <;> rfl
  | minus =>
    rw [show Sign.minus.text ++ l.flatMap Amount.text = '-' :: l.flatMap Amount.text from rfl, parseDuration, if_pos rfl, hm]
    split <;> rfl

/-! ### fractions -/

theorem fl_pow2 (n e : Nat) (hn : n < 2 ^ 53) : fl ((n : ℚ) * 2 ^ e) = n * 2 ^ e := by
  induction e with
  | zero => simpa using fl_nat n hn
  | succ e ih => rw [pow_succ, ← mul_assoc, fl_double _ (by positivity), ih]

theorem fl_ten (k : Nat) (hk : k ≤ 22) : fl ((10 : ℚ) ^ k) = 10 ^ k := by
  have h : (5 : ℕ) ^ k < 2 ^ 53 := lt_of_le_of_lt (Nat.pow_le_pow_right (by norm_num) hk) (by norm_num)
  have e : ((10 : ℚ)) ^ k = ((5 ^ k : ℕ) : ℚ) * 2 ^ k := by push_cast; rw [← mul_pow]; norm_num
  rw [e, fl_pow2 _ _ h]

theorem fraction_eq (f : Str) (hf : ∀ c ∈ f, c.isDigit = true) : ∀ (x k : Nat), x < 10 ^ k → k + f.length ≤ 18 →
    fraction f x (10 ^ k) = (x * 10 ^ f.length + num f, 10 ^ (k + f.length)) := by
  induction f with
  | nil => intro x k _ _; simp [fraction, num]
  | cons c f ih =>
    intro x k hx hk
    have h9 := digit_le (hf c List.mem_cons_self)
    rw [List.length_cons] at hk
    have hx' : x * 10 + (c.toNat - 48) < 10 ^ (k + 1) := by rw [pow_succ]; omega
    have h18 : 10 ^ (k + 1) ≤ 10 ^ 18 := Nat.pow_le_pow_right (by norm_num) (by omega)
    rw [fraction, if_pos (by have : (10 : ℕ) ^ 18 < 2 ^ 63 := by norm_num
                             omega), ← pow_succ, fl_ten _ (by omega), ih (fun c hc => hf c (List.mem_cons_of_mem _ hc)) _ _ hx' (by omega), num_cons, List.length_cons]
    refine Prod.ext ?_ ?_
    · simp only; ring
    · simp only; congr 1; omega

theorem frac_eq (f : Str) (hf : ∀ c ∈ f, c.isDigit = true) (h18 : f.length ≤ 18) (u : Nat) :
    fracNanos f u = ⌊fl (fl (num f : ℚ) * fl ((u : ℚ) / 10 ^ f.length))⌋.toNat := by
  have h := fraction_eq f hf 0 0 (by norm_num) (by omega)
  have h' : fraction f 0 1 = (num f, 10 ^ f.length) := by simpa using h
  unfold fracNanos
  rw [h']
  simp only
  by_cases h0 : num f > 0
  · rw [if_pos h0]
  · have : num f = 0 := by omega
    rw [if_neg h0, this]
    simp [fl]

theorem whole_length {f : Str} {u : TimeUnit} (h : 10 ^ f.length ∣ u.nanos) : f.length ≤ 12 := by
  by_contra hc
  have h1 : 10 ^ 13 ≤ 10 ^ f.length := Nat.pow_le_pow_right (by norm_num) (by omega)
  have h2 := Nat.le_of_dvd (unit_pos u).1 h
  have := (unit_pos u).2
  omega

theorem frac_exact (f : Str) (hf : ∀ c ∈ f, c.isDigit = true) (u : TimeUnit) (h : 10 ^ f.length ∣ u.nanos) : (fracNanos f u.nanos : ℚ) = num f / 10 ^ f.length * u.nanos := by
  have hl := whole_length h
  have hu := (unit_pos u).2
  obtain ⟨q, hq⟩ := h
  have hn := num_lt hf
  have hp : 0 < 10 ^ f.length := by positivity
  have hqu : q ≤ u.nanos := by rw [hq]; exact Nat.le_mul_of_pos_left _ hp
  have hnq : num f * q ≤ u.nanos := by rw [hq]; exact Nat.mul_le_mul_right _ hn.le
  have hnu : num f < 2 ^ 53 := by
    have : 10 ^ f.length ≤ 10 ^ 12 := Nat.pow_le_pow_right (by norm_num) hl
    omega
  have e1 : ((u.nanos : ℕ) : ℚ) / 10 ^ f.length = (q : ℕ) := by rw [hq]; push_cast; field_simp
  rw [frac_eq f hf (by omega), e1, fl_nat _ hnu, fl_nat q (by omega)]
  have e2 : ((num f : ℕ) : ℚ) * (q : ℕ) = ((num f * q : ℕ) : ℚ) := by push_cast; rfl
  rw [e2, fl_nat _ (by omega), Int.floor_natCast, Int.toNat_natCast, hq]
  push_cast
  field_simp

/-- rounding changes a number by a part in 2^53 -/
theorem fl_rel {q : ℚ} (hq : 0 ≤ q) : |fl q - q| ≤ q / 2 ^ 53 := by
  rcases hq.eq_or_lt with h | h
  · subst h; simp [fl]
  · refine (fl_err hq).trans ?_
    have h1 : (2 : ℚ) ^ Int.log 2 q ≤ q := by simpa using Int.zpow_log_le_self (b := 2) (by norm_num) h
    have h2 : ulp q = (2 : ℚ) ^ Int.log 2 q / 2 ^ 52 := by
      unfold ulp
      rw [zpow_sub₀ (by norm_num)]; norm_cast
    rw [h2]
    rw [div_div, div_le_div_iff₀ (by positivity) (by positivity)]
    nlinarith

theorem fl_nonneg {q : ℚ} (hq : 0 ≤ q) : 0 ≤ fl q := by
  have := abs_le.1 (fl_rel hq)
  have h2 : q / 2 ^ 53 ≤ q := div_le_self hq (by norm_num)
  linarith [this.1]

theorem frac_near (f : Str) (hf : ∀ c ∈ f, c.isDigit = true) (h18 : f.length ≤ 18) (u : TimeUnit) :
    |(fracNanos f u.nanos : ℚ) - num f / 10 ^ f.length * u.nanos| ≤ 2 := by
  rw [frac_eq f hf h18]
  have hn : (num f : ℚ) ≤ 10 ^ f.length := by exact_mod_cast (num_lt hf).le
  have hp : (0 : ℚ) < 10 ^ f.length := by positivity
  have hu0 : (0 : ℚ) ≤ u.nanos := by positivity
  have hu : (u.nanos : ℚ) ≤ 3600000000000 := by exact_mod_cast (unit_pos u).2
  set a : ℚ := (num f : ℚ) with ha
  set b : ℚ := (u.nanos : ℚ) / 10 ^ f.length with hb
  have ha0 : 0 ≤ a := by rw [ha]; positivity
  have hb0 : 0 ≤ b := by rw [hb]; positivity
  have hE : a / 10 ^ f.length * u.nanos = a * b := by rw [hb]; field_simp
  have hEu : a * b ≤ 3600000000000 := by
    rw [← hE]
    have : a / 10 ^ f.length ≤ 1 := by rw [div_le_one hp]; exact hn
    nlinarith
  rw [hE]
  have h1 := abs_le.1 (fl_rel ha0)
  have h2 := abs_le.1 (fl_rel hb0)
  have hfa := fl_nonneg ha0
  have hfb := fl_nonneg hb0
  have hab : 0 ≤ a * b := mul_nonneg ha0 hb0
  -- the product of the rounded numbers
  have up : fl a * fl b ≤ a * b * (1 + 3 / 2 ^ 53) := by
    have u1 : fl a ≤ a * (1 + 1 / 2 ^ 53) := by have := h1.2; linarith
    have u2 : fl b ≤ b * (1 + 1 / 2 ^ 53) := by have := h2.2; linarith
    calc fl a * fl b ≤ (a * (1 + 1 / 2 ^ 53)) * (b * (1 + 1 / 2 ^ 53)) := mul_le_mul u1 u2 hfb (by positivity)
      _ = a * b * ((1 + 1 / 2 ^ 53) * (1 + 1 / 2 ^ 53)) := by ring
      _ ≤ a * b * (1 + 3 / 2 ^ 53) := by apply mul_le_mul_of_nonneg_left _ hab; norm_num
  have lo : a * b * (1 - 3 / 2 ^ 53) ≤ fl a * fl b := by
    have u1 : a * (1 - 1 / 2 ^ 53) ≤ fl a := by have := h1.1; linarith
    have u2 : b * (1 - 1 / 2 ^ 53) ≤ fl b := by have := h2.1; linarith
    have p1 : 0 ≤ a * (1 - 1 / 2 ^ 53) := mul_nonneg ha0 (by norm_num)
    have p2 : 0 ≤ b * (1 - 1 / 2 ^ 53) := mul_nonneg hb0 (by norm_num)
    calc a * b * (1 - 3 / 2 ^ 53) ≤ a * b * ((1 - 1 / 2 ^ 53) * (1 - 1 / 2 ^ 53)) := by apply mul_le_mul_of_nonneg_left _ hab; norm_num
      _ = (a * (1 - 1 / 2 ^ 53)) * (b * (1 - 1 / 2 ^ 53)) := by ring
      _ ≤ fl a * fl b := mul_le_mul u1 u2 p2 hfa
  have hP : 0 ≤ fl a * fl b := mul_nonneg hfa hfb
  have h3 := abs_le.1 (fl_rel hP)
  have hz := fl_nonneg hP
  set z := fl (fl a * fl b) with hzd
  set P := fl a * fl b with hPd
  have hPb : P ≤ 3600000000001 := by
    have : a * b * (1 + 3 / 2 ^ 53) ≤ 3600000000000 * (1 + 3 / 2 ^ 53) := mul_le_mul_of_nonneg_right hEu (by norm_num)
    have e : (3600000000000 : ℚ) * (1 + 3 / 2 ^ 53) ≤ 3600000000001 := by norm_num
    linarith
  have d1 : P / 2 ^ 53 ≤ 1 / 2 := by
    rw [div_le_iff₀ (by positivity)]
    have : (3600000000001 : ℚ) ≤ 1 / 2 * 2 ^ 53 := by norm_num
    linarith
  have d2 : a * b * (3 / 2 ^ 53) ≤ 1 / 2 := by
    have : a * b * (3 / 2 ^ 53) ≤ 3600000000000 * (3 / 2 ^ 53) := mul_le_mul_of_nonneg_right hEu (by norm_num)
    have e : (3600000000000 : ℚ) * (3 / 2 ^ 53) ≤ 1 / 2 := by norm_num
    linarith
  have f1 : (⌊z⌋ : ℚ) ≤ z := Int.floor_le z
  have f2 : z < ⌊z⌋ + 1 := Int.lt_floor_add_one z
  have f3 : ((⌊z⌋.toNat : ℕ) : ℚ) = (⌊z⌋ : ℚ) := by
    have : 0 ≤ ⌊z⌋ := Int.floor_nonneg.2 hz
    have e : ((⌊z⌋.toNat : ℕ) : ℤ) = ⌊z⌋ := Int.toNat_of_nonneg this
    exact_mod_cast e
  rw [f3, abs_le]
  constructor
  · have := h3.1; linarith
  · have := h3.2; linarith

/-! ### C144 -/

theorem worth_exact (a : Amount) (ha : a.Good) (h : 10 ^ a.decimals.length ∣ a.unit.nanos) : (worth a : ℚ) = a.nanos := by
  unfold worth Amount.nanos
  push_cast
  rw [frac_exact _ ha.frac _ h]
  ring

theorem sum_exact (l : List Amount) (hl : ∀ a ∈ l, a.Good) (h : ∀ a ∈ l, 10 ^ a.decimals.length ∣ a.unit.nanos) : (((l.map worth).sum : Nat) : ℚ) = total l := by
  induction l with
  | nil => simp [total]
  | cons a l ih =>
    have := ih (fun x hx => hl x (List.mem_cons_of_mem _ hx)) fun x hx => h x (List.mem_cons_of_mem _ hx)
    rw [List.map_cons, List.sum_cons, Nat.cast_add, this, worth_exact a (hl a List.mem_cons_self) (h a List.mem_cons_self)]
    simp [total]

/-- **C144**, times: a list of amounts, each a whole number of nanoseconds, is read as their sum, with the sign before them; it is refused exactly if the sum does not fit
into 63 bits. -/
theorem c144_time (sg : Sign) (l : List Amount) (hl : ∀ a ∈ l, a.Good) (hne : l ≠ []) (h : ∀ a ∈ l, 10 ^ a.decimals.length ∣ a.unit.nanos) (d : Int) :
    parseDuration (sg.text ++ l.flatMap Amount.text) = some d ↔ total l < 2 ^ 63 ∧ ∃ n : Nat, (n : ℚ) = total l ∧ d = sg.apply n := by
  rw [duration_text sg l hl hne, ← sum_exact l hl h]
  constructor
  · intro hd
    split at hd
    · next hlt => cases hd; exact ⟨by exact_mod_cast hlt, _, rfl, rfl⟩
    · cases hd
  · rintro ⟨hlt, n, hn, rfl⟩
    have hlt' : (l.map worth).sum < 2 ^ 63 := by exact_mod_cast hlt
    have : n = (l.map worth).sum := by exact_mod_cast hn
    rw [if_pos hlt', this]

theorem worth_near (a : Amount) (ha : a.Good) (h : a.decimals.length ≤ 18) : |(worth a : ℚ) - a.nanos| ≤ 2 := by
  have := frac_near _ ha.frac h a.unit
  unfold worth Amount.nanos
  push_cast
  have e : (num a.whole : ℚ) * a.unit.nanos + fracNanos a.decimals a.unit.nanos - (num a.whole + num a.decimals / 10 ^ a.decimals.length) * a.unit.nanos =
      fracNanos a.decimals a.unit.nanos - num a.decimals / 10 ^ a.decimals.length * a.unit.nanos := by ring
  rw [e]
  exact this

/-- C144: amounts which are no whole numbers of nanoseconds, with up to 18 digits behind the point, are rounded: by no more than two nanoseconds each. -/
theorem c144_rounded (sg : Sign) (l : List Amount) (hl : ∀ a ∈ l, a.Good) (hne : l ≠ []) (h : ∀ a ∈ l, a.decimals.length ≤ 18) (ht : total l + 2 * l.length < 2 ^ 63) :
    ∃ n : Nat, parseDuration (sg.text ++ l.flatMap Amount.text) = some (sg.apply n) ∧ |(n : ℚ) - total l| ≤ 2 * l.length := by
  have key : |(((l.map worth).sum : Nat) : ℚ) - total l| ≤ 2 * l.length := by
    clear hne ht
    induction l with
    | nil => simp [total]
    | cons a l ih =>
      have h1 := abs_le.1 (ih (fun x hx => hl x (List.mem_cons_of_mem _ hx)) fun x hx => h x (List.mem_cons_of_mem _ hx))
      have h2 := abs_le.1 (worth_near a (hl a List.mem_cons_self) (h a List.mem_cons_self))
      have e : total (a :: l) = a.nanos + total l := by simp [total]
      rw [List.map_cons, List.sum_cons, Nat.cast_add, e, List.length_cons, abs_le]
      push_cast at h1 ⊢
      constructor <;> linarith [h1.1, h1.2, h2.1, h2.2]
  refine ⟨(l.map worth).sum, ?_, key⟩
  rw [duration_text sg l hl hne, if_pos]
  have := (abs_le.1 key).2
  have h2 : (((l.map worth).sum : Nat) : ℚ) < 2 ^ 63 := by linarith
  exact_mod_cast h2

theorem zero_unit (sg : Sign) : parseDuration (sg.text ++ ['0']) = some 0 := by
  cases sg <;> decide +kernel

theorem amount_reads {v ds s : Str} {n : Nat} {rest : Str} (h : amount v ds s = some (n, rest)) : ∃ u : TimeUnit, s = u.text ++ rest := by
  unfold amount at h
  split at h
  · cases h
  · split at h
    · cases h
    · next unit hu =>
      obtain ⟨u, e, -⟩ := unit_of hu
      split at h
      · cases h
      · split at h
        · cases h
          exact ⟨u, by rw [← e, List.takeWhile_append_dropWhile]⟩
        · cases h

theorem tw_digits (s : Str) : ∀ c ∈ s.takeWhile Char.isDigit, c.isDigit = true := fun _ hc => List.mem_takeWhile_imp hc

theorem term_reads {s rest : Str} {n : Nat} (h : term s = some (n, rest)) : ∃ a : Amount, a.Good ∧ s = a.text ++ rest := by
  match s with
  | [] => cases h
  | c :: r =>
    rw [term] at h
    split at h
    · cases h
    · next hin =>
      split at h
      · cases h
      · have hsp : (c :: r).takeWhile Char.isDigit ++ (c :: r).dropWhile Char.isDigit = c :: r := List.takeWhile_append_dropWhile
        split at h
        · next d r' hd =>
          rw [hd] at hsp
          split at h
          · next hdot =>
            subst hdot
            split at h
            · cases h
            · next hne =>
              obtain ⟨u, e⟩ := amount_reads h
              have hsp' : r'.takeWhile Char.isDigit ++ r'.dropWhile Char.isDigit = r' := List.takeWhile_append_dropWhile
              refine ⟨⟨(c :: r).takeWhile Char.isDigit, some (r'.takeWhile Char.isDigit), u⟩, ⟨tw_digits _, tw_digits _, ?_⟩, ?_⟩
              · by_cases hw : (c :: r).takeWhile Char.isDigit = []
                · exact .inr fun hf => hne ⟨hw, hf⟩
                · exact .inl hw
              · show c :: r = (_ ++ '.' :: _ ++ _) ++ rest
                rw [List.append_assoc, List.append_assoc, List.cons_append, ← e, hsp', hsp]
          · next hdot =>
            obtain ⟨u, e⟩ := amount_reads h
            refine ⟨⟨(c :: r).takeWhile Char.isDigit, none, u⟩, ⟨tw_digits _, by simp [Amount.decimals], .inl ?_⟩, ?_⟩
            · intro hw
              rw [show (Amount.mk ((c :: r).takeWhile Char.isDigit) none u).whole = (c :: r).takeWhile Char.isDigit from rfl] at hw
              rw [hw] at hsp
              have hcd : d = c := (List.cons.inj hsp).1
              subst hcd
              have hcd' : d.isDigit = false := by
                cases hb : d.isDigit
                · rfl
                · rw [List.takeWhile_cons, hb] at hw; cases hw
              simp [inNumber, hdot, hcd'] at hin
            · show c :: r = (_ ++ [] ++ _) ++ rest
              rw [List.append_nil, List.append_assoc, ← e, hsp]
        · cases h

theorem terms_reads : ∀ (k : Nat) (s : Str) (d n : Nat), terms k s d = some n → ∃ l : List Amount, (∀ a ∈ l, a.Good) ∧ s = l.flatMap Amount.text := by
  intro k
  induction k with
  | zero =>
    intro s d n h
    match s with
    | [] => exact ⟨[], by simp, rfl⟩
    | c :: r => cases h
  | succ k ih =>
    intro s d n h
    match s with
    | [] => exact ⟨[], by simp, rfl⟩
    | c :: r =>
      rw [terms] at h
      split at h
      · cases h
      · next v rest ht =>
        split at h
        · obtain ⟨a, ha, e⟩ := term_reads ht
          obtain ⟨l, hl, e'⟩ := ih rest _ _ h
          refine ⟨a :: l, ?_, by rw [e, e', List.flatMap_cons]⟩
          intro x hx
          rcases List.mem_cons.1 hx with rfl | hx
          · exact ha
          · exact hl x hx
        · cases h

theorem magnitude_reads {s : Str} {n : Nat} (h : magnitude s = some n) : s = ['0'] ∨ ∃ l : List Amount, l ≠ [] ∧ (∀ a ∈ l, a.Good) ∧ s = l.flatMap Amount.text := by
  unfold magnitude at h
  split at h
  · next h0 => exact .inl h0
  · split at h
    · cases h
    · next hne =>
      obtain ⟨l, hl, e⟩ := terms_reads _ _ _ _ h
      refine .inr ⟨l, ?_, hl, e⟩
      rintro rfl
      exact hne e

/-- C144: only such texts are read as times: amounts with units, with or without a sign; without a unit there is only 0. -/
theorem c144_time_text (s : Str) (d : Int) (h : parseDuration s = some d) :
    ∃ sg : Sign, (s = sg.text ++ ['0'] ∧ d = 0) ∨ ∃ l : List Amount, l ≠ [] ∧ (∀ a ∈ l, a.Good) ∧ s = sg.text ++ l.flatMap Amount.text := by
  have fin : ∀ (sg : Sign) (r : Str) (n : Nat), magnitude r = some n → s = sg.text ++ r →
      ∃ sg : Sign, (s = sg.text ++ ['0'] ∧ d = 0) ∨ ∃ l : List Amount, l ≠ [] ∧ (∀ a ∈ l, a.Good) ∧ s = sg.text ++ l.flatMap Amount.text := by
    intro sg r n hm hs
    rcases magnitude_reads hm with rfl | ⟨l, h1, h2, rfl⟩
    · refine ⟨sg, .inl ⟨hs, ?_⟩⟩
      have := zero_unit sg
      rw [← hs, h] at this
      exact Option.some.inj this
    · exact ⟨sg, .inr ⟨l, h1, h2, hs⟩⟩
  match s with
  | [] => cases h
  | c :: r =>
    rw [parseDuration] at h
    split at h
    · next hm =>
      subst hm
      cases hr : magnitude r with
      | none => rw [hr] at h; cases h
      | some n => exact fin .minus r n hr rfl
    · split at h
      · next hp =>
        subst hp
        cases hr : magnitude r with
        | none => rw [hr] at h; cases h
        | some n => exact fin .plus r n hr rfl
      · cases hr : magnitude (c :: r) with
        | none => rw [hr] at h; cases h
        | some n => exact fin .none _ n hr rfl

/-- an hour and a half, and 250 milliseconds -/
def sample : List Amount := [⟨['1'], some ['5'], .h⟩, ⟨"250".toList, none, .ms⟩]

theorem sample_good : ∀ a ∈ sample, a.Good := by
  intro a ha
  simp only [sample, List.mem_cons, List.not_mem_nil, or_false] at ha
  rcases ha with rfl | rfl
  · exact ⟨by decide, by decide, by decide⟩
  · exact ⟨by decide, by decide, by decide⟩

theorem sample_total : total sample = 5400250000000 := by
  have : ∀ f : Amount → ℚ, (sample.map f).sum = f ⟨['1'], some ['5'], .h⟩ + (f ⟨"250".toList, none, .ms⟩ + 0) := fun f => rfl
  have n1 : num ['1'] = 1 := by decide
  have n2 : num ['5'] = 5 := by decide
  have n3 : num "250".toList = 250 := by decide
  rw [total, this]
  simp only [Amount.nanos, Amount.decimals, Option.getD_some, Option.getD_none, n1, n2, n3, List.length_cons, List.length_nil, TimeUnit.nanos]
  norm_num [num]

example : parseDuration "1.5h250ms".toList = some 5400250000000 := by
  have := (c144_time .none sample sample_good (by simp [sample]) (by intro a ha; simp only [sample, List.mem_cons, List.not_mem_nil, or_false] at ha; rcases ha with rfl | rfl <;> decide)
    5400250000000).2 ⟨by rw [sample_total]; norm_num, 5400250000000, by rw [sample_total]; norm_num, rfl⟩
  exact this

example : parseDuration "30".toList = none ∧ parseDuration "".toList = none ∧ parseDuration "5 s".toList = none := by decide +kernel

/-! ### the command line -/

open Verif.Spec.CommandLine (Written Readable Means last)

/-- the time limit `d` is what the text `v` says, if the amounts in it are whole nanoseconds -/
def SaysTime (v : Str) (d : Int) : Prop :=
  ∀ (sg : Sign) (l : List Amount), (∀ a ∈ l, a.Good ∧ 10 ^ a.decimals.length ∣ a.unit.nanos) → l ≠ [] → v = sg.text ++ l.flatMap Amount.text →
    ∃ n : Nat, (n : ℚ) = total l ∧ d = sg.apply n

theorem says_time {v : Str} {d : Int} (h : parseDuration v = some d) : SaysTime v d := by
  rintro sg l hl hne rfl
  exact ((c144_time sg l (fun a ha => (hl a ha).1) hne (fun a ha => (hl a ha).2) d).1 h).2

/-- **C144**: with the program's own readers, the port is the number that the last `-p2p-port` says and the time limits are those that the last flags for them say. -/
theorem c144_settings (cid : Str → Option Bytes) (l : List Written) (hl : ∀ w ∈ l, w.Allowed ∧ Readable (env cid) w.says) (c : Flags.Conf Multiaddr.Addr)
    (hc : Flags.parseFlags (env cid) (l.flatMap Written.args) = some c) :
    (∀ v, last (l.map Written.says) .p2pPort = some v → Signed v c.port ∧ -2 ^ 63 ≤ c.port ∧ c.port < 2 ^ 63) ∧
    (last (l.map Written.says) .p2pPort = none → c.port = 6668) ∧
    (∀ v, last (l.map Written.says) .genTimeout = some v → SaysTime v c.genTimeout) ∧
    (∀ v, last (l.map Written.says) .signTimeout = some v → SaysTime v c.signTimeout) ∧
    (∀ v, last (l.map Written.says) .preParamTimeout = some v → SaysTime v c.preParamTimeout) := by
  obtain ⟨c', hc', m⟩ := CommandLine.c124_honoured (env := env cid) l hl
  rw [hc] at hc'
  cases hc'
  have mem : ∀ (f : Flags.Flag) (v : Str), last (l.map Written.says) f = some v → ∃ w ∈ l, w.says = (f, v) := by
    intro f v h
    have := List.mem_of_getLast? h
    obtain ⟨x, hx, rfl⟩ := List.mem_map.1 this
    obtain ⟨hx1, hx2⟩ := List.mem_filter.1 hx
    obtain ⟨w, hw, rfl⟩ := List.mem_map.1 hx1
    have hf : w.says.1 = f := by simpa using hx2
    exact ⟨w, hw, by rw [← hf]⟩
  have time : ∀ (f : Flags.Flag) (v : Str), f = .genTimeout ∨ f = .signTimeout ∨ f = .preParamTimeout → last (l.map Written.says) f = some v →
      ∃ d, parseDuration v = some d := by
    intro f v hf h
    obtain ⟨w, hw, e⟩ := mem f v h
    have hr := (hl w hw).2
    rw [e] at hr
    have : parseDuration v ≠ none := by rcases hf with rfl | rfl | rfl <;> exact hr
    exact Option.ne_none_iff_exists'.1 this
  refine ⟨?_, ?_, ?_, ?_, ?_⟩
  · intro v hv
    obtain ⟨w, hw, e⟩ := mem _ v hv
    have hr := (hl w hw).2
    rw [e] at hr
    have hr' : parseInt v ≠ none := hr
    obtain ⟨n, hn⟩ := Option.ne_none_iff_exists'.1 hr'
    have : c.port = n := by
      rw [m.port, hv]
      show (parseInt v).getD 6668 = n
      rw [hn]; rfl
    rw [this]
    exact (c144_number v n).1 hn
  · intro hv
    rw [m.port, hv]; rfl
  · intro v hv
    obtain ⟨d, hd⟩ := time _ v (.inl rfl) hv
    have : c.genTimeout = d := by
      rw [m.genTimeout, hv]
      show (parseDuration v).getD _ = d
      rw [hd]; rfl
    rw [this]; exact says_time hd
  · intro v hv
    obtain ⟨d, hd⟩ := time _ v (.inr (.inl rfl)) hv
    have : c.signTimeout = d := by
      rw [m.signTimeout, hv]
      show (parseDuration v).getD _ = d
      rw [hd]; rfl
    rw [this]; exact says_time hd
  · intro v hv
    obtain ⟨d, hd⟩ := time _ v (.inr (.inr rfl)) hv
    have : c.preParamTimeout = d := by
      rw [m.preParamTimeout, hv]
      show (parseDuration v).getD _ = d
      rw [hd]; rfl
    rw [this]; exact says_time hd

/-- C144: a negative time limit is accepted as it is written. -/
theorem c144_negative (cid : Str → Option Bytes) :
    ∃ c, Flags.parseFlags (env cid) ["-gentimeout=-90s".toList, "-signtimeout".toList, "-1m30s".toList] = some c ∧ c.genTimeout = -90000000000 ∧
      c.signTimeout = -90000000000 := by
  have h1 : parseDuration "-90s".toList = some (-90000000000) := by decide +kernel
  have h2 : parseDuration "-1m30s".toList = some (-90000000000) := by decide +kernel
  obtain ⟨c, hc, m⟩ := CommandLine.c124_honoured (env := env cid)
    [.equals false .genTimeout "-90s".toList, .apart false .signTimeout "-1m30s".toList] (by
      intro w hw
      simp only [List.mem_cons, List.not_mem_nil, or_false] at hw
      rcases hw with rfl | rfl
      · exact ⟨trivial, fun h => by have h' : parseDuration "-90s".toList = none := h; rw [h1] at h'; cases h'⟩
      · exact ⟨by simp [Written.Allowed, Spec.CommandLine.Switch], fun h => by have h' : parseDuration "-1m30s".toList = none := h; rw [h2] at h'; cases h'⟩)
  have ha : List.flatMap Written.args [.equals false .genTimeout "-90s".toList, .apart false .signTimeout "-1m30s".toList] =
      ["-gentimeout=-90s".toList, "-signtimeout".toList, "-1m30s".toList] := by decide +kernel
  rw [ha] at hc
  have g1 : last ([Written.equals false .genTimeout "-90s".toList, .apart false .signTimeout "-1m30s".toList].map Written.says) .genTimeout = some "-90s".toList := by decide +kernel
  have g2 : last ([Written.equals false .genTimeout "-90s".toList, .apart false .signTimeout "-1m30s".toList].map Written.says) .signTimeout = some "-1m30s".toList := by decide +kernel
  refine ⟨c, hc, ?_, ?_⟩
  · rw [m.genTimeout, g1, Option.bind_some]
    show (parseDuration "-90s".toList).getD _ = _
    rw [h1]; rfl
  · rw [m.signTimeout, g2, Option.bind_some]
    show (parseDuration "-1m30s".toList).getD _ = _
    rw [h2]; rfl

end Verif.Props.FlagText
