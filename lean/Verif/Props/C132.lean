import Verif.Spec.Json
import Verif.Props.C131
import Mathlib.Data.List.Induction
import Mathlib.Data.List.TakeWhile
import Mathlib.Tactic.IntervalCases

set_option linter.unusedSectionVars false

/-!
# C132: which texts are JSON, and what they say
-/
namespace Verif.Props.JsonTexts
open Verif.MsgId (Str)
open Verif.Json Verif.Spec.Json

/-! ## characters -/

theorem firstRune_iff (b : Bytes) (c : Char) : firstRune b = some c ↔ String.utf8EncodeChar c <+: b := by
  unfold firstRune
  constructor
  · intro h
    have := ByteArray.exists_of_utf8DecodeChar?_eq_some h
    obtain ⟨l, hl⟩ := this
    refine ⟨l.data.toList, ?_⟩
    have h2 := congrArg (fun x : ByteArray => x.data.toList) hl
    simpa using h2.symm
  · rintro ⟨l, rfl⟩
    have := ByteArray.utf8DecodeChar?_utf8EncodeChar_append (b := l.toByteArray) (c := c)
    rw [List.toByteArray_append]
    exact this

theorem enc_ne (c : Char) : ∃ x l, String.utf8EncodeChar c = x :: l ∧ l.length = c.utf8Size - 1 := by
  have h := String.length_utf8EncodeChar c
  have h2 := c.utf8Size_pos
  match hx : String.utf8EncodeChar c with
  | [] => rw [hx] at h; simp at h; omega
  | x :: l => exact ⟨x, l, rfl, by rw [hx] at h; simp at h; omega⟩

theorem runesFrom_skip (l b : Bytes) : runesFrom l.length (l ++ b) = runesFrom 0 b := by
  induction l with
  | nil => rfl
  | cons x l ih => simpa [runesFrom] using ih

theorem runesFrom_char (c : Char) (b : Bytes) : runesFrom 0 (String.utf8EncodeChar c ++ b) = c :: runesFrom 0 b := by
  obtain ⟨x, l, hx, hl⟩ := enc_ne c
  have h : firstRune (x :: (l ++ b)) = some c := (firstRune_iff _ _).2 ⟨b, by rw [hx]; rfl⟩
  rw [hx, List.cons_append, runesFrom, h]
  show c :: runesFrom (c.utf8Size - 1) (l ++ b) = _
  rw [← hl, runesFrom_skip]

theorem runes_sound (n : Nat) : ∀ b : Bytes, b.length ≤ n → Runes b (runes b) := by
  induction n with
  | zero => intro b hb; match b with | [] => exact .nil | _ :: _ => simp at hb
  | succ n ih =>
    intro b hb
    match b with
    | [] => exact .nil
    | x :: r =>
      match h : firstRune (x :: r) with
      | some c =>
        obtain ⟨b', hb'⟩ := (firstRune_iff _ _).1 h
        rw [← hb']
        have : runes (String.utf8EncodeChar c ++ b') = c :: runes b' := runesFrom_char c b'
        rw [this]
        refine .char c (ih b' ?_)
        obtain ⟨y, l, hy, hl⟩ := enc_ne c
        have := congrArg List.length hb'
        rw [hy] at this
        simp at this hb
        omega
      | none =>
        have : runes (x :: r) = '\ufffd' :: runes r := by
          show runesFrom 0 (x :: r) = _
          rw [runesFrom, h]; rfl
        rw [this]
        refine .bad x (fun c hc => ?_) (ih r (by simp at hb; omega))
        rw [(firstRune_iff _ _).2 hc] at h
        cases h

theorem runes_complete {b : Bytes} {s : Str} (h : Runes b s) : runes b = s := by
  induction h with
  | nil => rfl
  | char c _ ih => exact (runesFrom_char c _).trans (by rw [← ih]; rfl)
  | bad x hx _ ih =>
    show runesFrom 0 (x :: _) = _
    rw [runesFrom]
    match h : firstRune (x :: _) with
    | some c => exact absurd ((firstRune_iff _ _).1 h) (hx c)
    | none => show _ :: runesFrom 0 _ = _; rw [← ih]; rfl

/-- the characters the program reads are those of the bytes, invalid bytes being U+FFFD -/
theorem c132_characters (b : Bytes) (s : Str) : runes b = s ↔ Runes b s :=
  ⟨fun h => h ▸ runes_sound b.length b (Nat.le_refl _), runes_complete⟩

/-- characters written are read back -/
theorem c132_written (s : Str) : runes (utf8 s) = s := by
  induction s with
  | nil => rfl
  | cons c s ih =>
    have : utf8 (c :: s) = String.utf8EncodeChar c ++ utf8 s := by simp [utf8]
    rw [this]
    exact (runesFrom_char c _).trans (congrArg (c :: ·) ih)

/-! ## spaces -/

theorem isSpace_iff (c : Char) : isSpace c = true ↔ c ∈ [' ', '\t', '\n', '\r'] := by
  simp [isSpace]; tauto

theorem skip_split (s : Str) : ∃ w, s = w ++ skip s ∧ Space w := by
  refine ⟨s.takeWhile isSpace, (List.takeWhile_append_dropWhile).symm, fun c hc => ?_⟩
  exact (isSpace_iff c).1 (List.mem_takeWhile_imp hc)

theorem skip_append {w r : Str} (hw : Space w) (hr : ∀ c, r.head? = some c → isSpace c = false) : skip (w ++ r) = r := by
  unfold skip
  rw [List.dropWhile_append]
  have h1 : List.dropWhile isSpace w = [] := List.dropWhile_eq_nil_iff.2 fun c hc => (isSpace_iff c).2 (hw c hc)
  rw [h1]
  simp only [List.isEmpty_nil, if_true]
  match r with
  | [] => rfl
  | c :: r => rw [List.dropWhile_cons, if_neg]; simp [hr c rfl]

theorem skip_cons {w r : Str} {c : Char} (hw : Space w) (hc : isSpace c = false) : skip (w ++ c :: r) = c :: r :=
  skip_append hw fun d hd => by cases hd; exact hc

theorem skip_space {w : Str} (hw : Space w) : skip w = [] := by
  have := skip_append (r := []) hw (fun c hc => by cases hc)
  rwa [List.append_nil] at this

theorem space_of_skip {s : Str} (h : skip s = []) : Space s := by
  obtain ⟨w, h1, h2⟩ := skip_split s
  rw [h, List.append_nil] at h1
  exact h1 ▸ h2

/-! ## strings -/

theorem char_of (c : Char) (k : Nat) (h : c.toNat = k) : c = Char.ofNat k := by rw [← h, Char.ofNat_toNat]

theorem hex_iff (c : Char) (n : Nat) : hex c = some n ↔ Hex c n := by
  constructor
  · intro h
    unfold hex at h
    split_ifs at h with h1 h2 h3
    · have a1 : 48 ≤ c.toNat := h1.1
      have a2 : c.toNat ≤ 57 := h1.2
      generalize hk : c.toNat = k at *
      rw [char_of c k hk]
      cases h
      interval_cases k <;> exact .inl (by decide)
    · have a1 : 97 ≤ c.toNat := h2.1
      have a2 : c.toNat ≤ 102 := h2.2
      generalize hk : c.toNat = k at *
      rw [char_of c k hk]
      cases h
      interval_cases k <;> exact .inl (by decide)
    · have a1 : 65 ≤ c.toNat := h3.1
      have a2 : c.toNat ≤ 70 := h3.2
      generalize hk : c.toNat = k at *
      rw [char_of c k hk]
      cases h
      interval_cases k <;> exact .inr (by decide)
  · rintro (h | h)
    · have hn : n < 16 := (List.getElem?_eq_some_iff.1 h).1
      interval_cases n <;> (cases h; decide)
    · have hn : n < 16 := (List.getElem?_eq_some_iff.1 h).1
      interval_cases n <;> (cases h; decide)

theorem hex_lt {c : Char} {n : Nat} (h : Hex c n) : n < 16 := by
  rcases h with h | h
  · exact (List.getElem?_eq_some_iff.1 h).1
  · exact (List.getElem?_eq_some_iff.1 h).1

theorem hex4_iff (a b c d : Char) (n : Nat) :
    hex4 a b c d = some n ↔ ∃ w x y z, Hex a w ∧ Hex b x ∧ Hex c y ∧ Hex d z ∧ n = w * 4096 + x * 256 + y * 16 + z := by
  unfold hex4
  constructor
  · intro h
    split at h
    · rename_i w x y z h1 h2 h3 h4
      cases h
      exact ⟨w, x, y, z, (hex_iff _ _).1 h1, (hex_iff _ _).1 h2, (hex_iff _ _).1 h3, (hex_iff _ _).1 h4, rfl⟩
    · cases h
  · rintro ⟨w, x, y, z, h1, h2, h3, h4, rfl⟩
    rw [(hex_iff _ _).2 h1, (hex_iff _ _).2 h2, (hex_iff _ _).2 h3, (hex_iff _ _).2 h4]

theorem short_iff (e c : Char) : Json.short e = some c ↔
    (e, c) ∈ [('"', '"'), ('\\', '\\'), ('/', '/'), ('b', '\x08'), ('f', '\x0c'), ('n', '\n'), ('r', '\r'), ('t', '\t')] := by
  unfold Json.short
  constructor
  · intro h
    split_ifs at h with h1 h2 h3 h4 h5 h6 h7 h8 <;> (cases h; subst_vars; decide)
  · intro h
    simp only [List.mem_cons, Prod.mk.injEq, List.not_mem_nil, or_false] at h
    rcases h with ⟨rfl, rfl⟩ | ⟨rfl, rfl⟩ | ⟨rfl, rfl⟩ | ⟨rfl, rfl⟩ | ⟨rfl, rfl⟩ | ⟨rfl, rfl⟩ | ⟨rfl, rfl⟩ | ⟨rfl, rfl⟩ <;> rfl

theorem pieces_sound (n : Nat) : ∀ (s : Str) (l : List Piece) (r : Str), s.length ≤ n → pieces s = some (l, r) → ∃ u, s = u ++ '"' :: r ∧ Pieces l u := by
  induction n with
  | zero => intro s l r hs h; match s with | [] => cases h | _ :: _ => simp at hs
  | succ n ih =>
    intro s l r hs h
    match s with
    | [] => cases h
    | c :: s =>
      have hs' : s.length ≤ n := by simpa using hs
      rw [pieces.eq_def] at h
      dsimp only at h
      split_ifs at h with h1 h2 h3
      · cases h; subst h1; exact ⟨[], rfl, .nil⟩
      · subst h2
        match s with
        | [] => cases h
        | e :: s =>
          dsimp only at h
          simp only [List.length_cons] at hs'
          split_ifs at h with h3
          · subst h3
            match s with
            | a :: b :: c :: d :: s =>
              dsimp only at h
              simp only [List.length_cons] at hs'
              split at h
              · rename_i m l' x e1 e2
                cases h
                obtain ⟨u, rfl, hu⟩ := ih s l' r (by omega) e2
                obtain ⟨w, x, y, z, q1, q2, q3, q4, rfl⟩ := (hex4_iff _ _ _ _ _).1 e1
                exact ⟨_, rfl, .cons (.code a b c d w x y z q1 q2 q3 q4) hu⟩
              · cases h
            | [] => cases h
            | [_] => cases h
            | [_, _] => cases h
            | [_, _, _] => cases h
          · split at h
            · rename_i d l' x e1 e2
              cases h
              obtain ⟨u, rfl, hu⟩ := ih s l' r (by omega) e2
              exact ⟨_, rfl, .cons (.short d e ((short_iff _ _).1 e1)) hu⟩
            · cases h
      · split at h
        · rename_i l' x e2
          cases h
          obtain ⟨u, rfl, hu⟩ := ih s l' r hs' e2
          exact ⟨_, rfl, .cons (.plain c (by omega) h1 h2) hu⟩
        · cases h

theorem pieces_complete {l : List Piece} {u : Str} (h : Pieces l u) (r : Str) : pieces (u ++ '"' :: r) = some (l, r) := by
  induction h with
  | nil => rw [List.nil_append, pieces.eq_def]; rfl
  | @cons p l t u hp _ ih =>
    cases hp with
    | plain c h1 h2 h3 =>
      rw [List.append_assoc, List.cons_append, pieces.eq_def]
      dsimp only
      rw [if_neg h2, if_neg h3, if_neg (by omega), List.nil_append, ih]
    | short c e h1 =>
      rw [List.append_assoc, List.cons_append, List.cons_append, List.nil_append, pieces.eq_def]
      dsimp only
      rw [if_neg (by decide), if_pos rfl]
      have he : e ≠ 'u' := by
        rintro rfl
        revert h1
        simp
      rw [if_neg he, (short_iff _ _).2 h1, ih]
    | code a b c d w x y z q1 q2 q3 q4 =>
      rw [List.append_assoc, List.cons_append, List.cons_append, List.cons_append, List.cons_append, List.cons_append, List.cons_append, List.nil_append,
        pieces.eq_def]
      dsimp only
      rw [if_neg (by decide), if_pos rfl, if_pos rfl]
      rw [(hex4_iff _ _ _ _ _).2 ⟨w, x, y, z, q1, q2, q3, q4, rfl⟩, ih]

theorem code_lt {l : List Piece} {u : Str} (h : Pieces l u) : ∀ n, Piece.code n ∈ l → n < 65536 := by
  induction h with
  | nil => intro n h; cases h
  | cons hp _ ih =>
    intro n hn
    rcases List.mem_cons.1 hn with h | h
    · subst h
      cases hp with
      | code a b c d w x y z q1 q2 q3 q4 =>
        have := hex_lt q1; have := hex_lt q2; have := hex_lt q3; have := hex_lt q4
        omega
    · exact ih n h

theorem toNat_ofNat {n : Nat} (h : n < 0xD800 ∨ (0xDFFF < n ∧ n < 0x110000)) : (Char.ofNat n).toNat = n := by
  have hv : n.isValidChar := by unfold Nat.isValidChar; omega
  unfold Char.ofNat
  rw [dif_pos hv]
  rfl

theorem char_valid (c : Char) : ¬ (0xD800 ≤ c.toNat ∧ c.toNat < 0xE000) := by
  have h : c.toNat < 0xD800 ∨ (0xDFFF < c.toNat ∧ c.toNat < 0x110000) := c.valid
  omega

theorem single_char (c : Char) : single c.toNat = c := by
  unfold single
  rw [if_neg (char_valid c), Char.ofNat_toNat]

theorem pair_some {h k : Nat} {c : Char} (e : pair h k = some c) : High h ∧ Low k ∧ c.toNat = 0x10000 + (h - 0xD800) * 0x400 + (k - 0xDC00) := by
  unfold pair at e
  split at e
  · rename_i q
    obtain ⟨q1, q2, q3, q4⟩ := q
    have e := Option.some.inj e
    subst e
    refine ⟨⟨q1, Nat.le_of_lt_succ q2⟩, ⟨q3, Nat.le_of_lt_succ q4⟩, ?_⟩
    obtain ⟨a, rfl⟩ := Nat.exists_eq_add_of_le q1
    obtain ⟨b, rfl⟩ := Nat.exists_eq_add_of_le q3
    rw [Nat.add_sub_cancel_left, Nat.add_sub_cancel_left]
    have ha : a < 1024 := by omega
    have hb : b < 1024 := by omega
    rw [toNat_ofNat (Or.inr ⟨by omega, by omega⟩), Nat.add_comm, Nat.add_assoc]
  · cases e

theorem pair_of {h k : Nat} {c : Char} (h1 : High h) (h2 : Low k) (e : c.toNat = 0x10000 + (h - 0xD800) * 0x400 + (k - 0xDC00)) : pair h k = some c := by
  unfold High at h1
  unfold Low at h2
  have h3 : 0xD800 ≤ h ∧ h < 0xDC00 ∧ 0xDC00 ≤ k ∧ k < 0xE000 := ⟨h1.1, Nat.lt_succ_of_le h1.2, h2.1, Nat.lt_succ_of_le h2.2⟩
  unfold pair
  rw [if_pos h3, ← Char.ofNat_toNat c, e, Nat.add_comm, Nat.add_assoc]

theorem pair_none {h k : Nat} (e : pair h k = none) : ¬ (High h ∧ Low k) := by
  unfold pair at e
  split at e
  · cases e
  · unfold High Low; omega

theorem pair_eq_none {h k : Nat} (e : ¬ (High h ∧ Low k)) : pair h k = none := by
  match q : pair h k with
  | none => rfl
  | some c => exact absurd ⟨(pair_some q).1, (pair_some q).2.1⟩ e

/-- one escape that does not begin a pair -/
theorem means_single {h : Nat} {l : List Piece} {s : Str} (hh : h < 65536) (hl : High h → ∀ k, Low k → l.head? ≠ some (.code k)) (hm : Means l s) :
    Means (.code h :: l) (single h :: s) := by
  unfold single
  split
  · rename_i q
    exact .lone h (by unfold High Low; omega) hl hm
  · rename_i q
    have := Means.code (Char.ofNat h) hm
    rwa [toNat_ofNat (by omega)] at this

theorem join_sound (l : List Piece) : (∀ n, Piece.code n ∈ l → n < 65536) → Means l (join l) := by
  fun_induction join l with
  | case1 => intro _; exact .nil
  | case2 c r ih => intro h; exact .char c (ih fun n hn => h n (List.mem_cons_of_mem _ hn))
  | case3 x => intro h; exact means_single (h x (by simp)) (fun _ k _ => by simp) .nil
  | case4 x c r ih =>
    intro h
    exact means_single (h x (by simp)) (fun _ k _ => by simp) (.char c (ih fun n hn => h n (by simp [hn])))
  | case5 x y r c hc ih =>
    intro h
    obtain ⟨h1, h2, h3⟩ := pair_some hc
    exact .pair c x y h1 h2 h3 (ih fun n hn => h n (by simp [hn]))
  | case6 x y r hc ih =>
    intro h
    refine means_single (h x (by simp)) (fun hx k hk e => ?_) (ih fun n hn => h n (by rcases List.mem_cons.1 hn with q | q <;> simp [q]))
    simp at e
    subst e
    exact pair_none hc ⟨hx, hk⟩

theorem join_code {h : Nat} {l : List Piece} (hl : ∀ k, l.head? = some (.code k) → ¬ (High h ∧ Low k)) : join (.code h :: l) = single h :: join l := by
  match l with
  | [] => simp [join]
  | .char c :: r => simp [join]
  | .code k :: r =>
    rw [join, pair_eq_none (hl k rfl)]

theorem join_complete {l : List Piece} {s : Str} (h : Means l s) : join l = s := by
  induction h with
  | nil => rfl
  | char c _ ih => rw [join, ih]
  | code c _ ih =>
    rw [join_code, ih, single_char]
    rintro k _ ⟨h1, _⟩
    have := char_valid c
    unfold High at h1
    omega
  | pair c x y h1 h2 h3 _ ih =>
    rw [join, pair_of h1 h2 h3, ih]
  | lone x h1 h2 _ ih =>
    rw [join_code (fun k hk hh => h2 hh.1 k hh.2 hk), ih]
    unfold single
    rw [if_pos]
    unfold High Low at h1
    omega

theorem string_sound {s n r : Str} (h : string s = some (n, r)) : ∃ m, '"' :: s = m ++ r ∧ IsString n m := by
  unfold string at h
  match hp : pieces s with
  | none => rw [hp] at h; cases h
  | some (l, x) =>
    rw [hp] at h
    cases h
    obtain ⟨u, rfl, hu⟩ := pieces_sound s.length s l _ (Nat.le_refl _) hp
    exact ⟨'"' :: (u ++ ['"']), by simp, l, u, rfl, hu, join_sound l (code_lt hu)⟩

theorem string_complete {n m : Str} (h : IsString n m) (r : Str) : ∃ s, m ++ r = '"' :: s ∧ string s = some (n, r) := by
  obtain ⟨l, u, rfl, hu, hm⟩ := h
  refine ⟨u ++ '"' :: r, by simp, ?_⟩
  unfold string
  rw [pieces_complete hu, Option.map_some, join_complete hm]

/-! ## numbers -/

theorem digit_iff (c : Char) : c.isDigit = true ↔ c ∈ "0123456789".toList := by
  constructor
  · intro h
    unfold Char.isDigit at h
    simp only [Bool.and_eq_true, decide_eq_true_eq] at h
    have a1 : 48 ≤ c.toNat := h.1
    have a2 : c.toNat ≤ 57 := h.2
    generalize hk : c.toNat = k at *
    rw [char_of c k hk]
    interval_cases k <;> decide
  · intro h
    simp only [List.mem_cons, List.not_mem_nil, or_false, show "0123456789".toList = ['0', '1', '2', '3', '4', '5', '6', '7', '8', '9'] from rfl] at h
    rcases h with rfl | rfl | rfl | rfl | rfl | rfl | rfl | rfl | rfl | rfl <;> rfl

theorem digits_iff (t : Str) : Digits t ↔ t ≠ [] ∧ ∀ c ∈ t, c.isDigit = true :=
  ⟨fun h => ⟨h.1, fun c hc => (digit_iff c).2 (h.2 c hc)⟩, fun h => ⟨h.1, fun c hc => (digit_iff c).1 (h.2 c hc)⟩⟩

theorem nonzero_iff (c : Char) : c ∈ "123456789".toList ↔ c.isDigit = true ∧ c ≠ '0' := by
  rw [digit_iff]
  simp only [List.mem_cons, List.not_mem_nil, or_false, show "0123456789".toList = ['0', '1', '2', '3', '4', '5', '6', '7', '8', '9'] from rfl,
    show "123456789".toList = ['1', '2', '3', '4', '5', '6', '7', '8', '9'] from rfl]
  constructor
  · rintro (rfl | rfl | rfl | rfl | rfl | rfl | rfl | rfl | rfl) <;> decide
  · rintro ⟨h | h, h'⟩
    · exact absurd h h'
    · exact h

theorem split_digits (s : Str) : ∃ d, s = d ++ s.dropWhile Char.isDigit ∧ d = s.takeWhile Char.isDigit ∧ ∀ c ∈ d, c.isDigit = true :=
  ⟨_, (List.takeWhile_append_dropWhile).symm, rfl, fun _ hc => List.mem_takeWhile_imp hc⟩

theorem someDigits_sound {s r : Str} (h : someDigits s = some r) : ∃ d, s = d ++ r ∧ Digits d := by
  unfold someDigits at h
  split at h
  · cases h
  · rename_i hd
    cases h
    exact ⟨s.takeWhile Char.isDigit, (List.takeWhile_append_dropWhile).symm, (digits_iff _).2 ⟨hd, fun _ hc => List.mem_takeWhile_imp hc⟩⟩

/-- does not begin with a digit -/
def NoDigit (r : Str) : Prop := ∀ c, r.head? = some c → c.isDigit = false

theorem drop_digits {d r : Str} (hd : ∀ c ∈ d, c.isDigit = true) (hr : NoDigit r) : (d ++ r).dropWhile Char.isDigit = r := by
  induction d with
  | nil =>
    match r with
    | [] => rfl
    | c :: r => rw [List.nil_append, List.dropWhile_cons, if_neg]; simp [hr c rfl]
  | cons c d ih =>
    rw [List.cons_append, List.dropWhile_cons, if_pos (hd c (by simp))]
    exact ih fun x hx => hd x (by simp [hx])

theorem someDigits_complete {d r : Str} (hd : Digits d) (hr : NoDigit r) : someDigits (d ++ r) = some r := by
  obtain ⟨h1, h2⟩ := (digits_iff d).1 hd
  unfold someDigits
  rw [drop_digits h2 hr, if_neg]
  intro h
  match d with
  | [] => exact h1 rfl
  | c :: d => rw [List.cons_append, List.takeWhile_cons, if_pos (h2 c (by simp))] at h; cases h

theorem afterInt_sound {s r : Str} (h : afterInt s = some r) : ∃ i, s = i ++ r ∧ IsInt i := by
  match s with
  | [] => cases h
  | c :: s =>
    rw [afterInt.eq_def] at h
    dsimp only at h
    split_ifs at h with h1 h2
    · cases h; subst h1; exact ⟨['0'], rfl, .inl rfl⟩
    · cases h
      obtain ⟨d, h3, _, h4⟩ := split_digits s
      exact ⟨c :: d, by rw [List.cons_append, ← h3], .inr ⟨c, d, rfl, (nonzero_iff c).2 ⟨h2, h1⟩, fun x hx => (digit_iff x).1 (h4 x hx)⟩⟩

theorem afterInt_complete {i r : Str} (hi : IsInt i) (hr : NoDigit r) : afterInt (i ++ r) = some r := by
  rcases hi with rfl | ⟨c, d, rfl, hc, hd⟩
  · rfl
  · obtain ⟨h1, h2⟩ := (nonzero_iff c).1 hc
    rw [List.cons_append, afterInt, if_neg h2, if_pos h1, drop_digits (fun x hx => (digit_iff x).2 (hd x hx)) hr]

theorem afterFrac_sound {s r : Str} (h : afterFrac s = some r) : ∃ f, s = f ++ r ∧ IsFrac f := by
  match s with
  | [] => cases h; exact ⟨[], rfl, .inl rfl⟩
  | c :: s =>
    rw [afterFrac.eq_def] at h
    dsimp only at h
    split_ifs at h with h1
    · obtain ⟨d, rfl, hd⟩ := someDigits_sound h
      subst h1
      exact ⟨'.' :: d, rfl, .inr ⟨d, rfl, hd⟩⟩
    · cases h; exact ⟨[], rfl, .inl rfl⟩

theorem afterFrac_complete {f r : Str} (hf : IsFrac f) (hr : NoDigit r) (hr' : r.head? ≠ some '.') : afterFrac (f ++ r) = some r := by
  rcases hf with rfl | ⟨d, rfl, hd⟩
  · match r with
    | [] => rfl
    | c :: r => rw [List.nil_append, afterFrac, if_neg]; rintro rfl; exact hr' rfl
  · rw [List.cons_append, afterFrac, if_pos rfl, someDigits_complete hd hr]

theorem afterExp_sound {s : Str} (h : afterExp s = some []) : IsExp s := by
  match s with
  | [] => exact .inl rfl
  | c :: s =>
    rw [afterExp.eq_def] at h
    dsimp only at h
    split_ifs at h with h1
    · match s with
      | [] => cases h
      | d :: s =>
        dsimp only at h
        have he : c ∈ ['e', 'E'] := by simpa using h1
        split_ifs at h with h2
        · obtain ⟨x, rfl, hx⟩ := someDigits_sound h
          refine .inr ⟨c, [d], x, by simp, he, ?_, hx⟩
          rcases h2 with rfl | rfl <;> simp
        · obtain ⟨x, hx1, hx⟩ := someDigits_sound h
          rw [List.append_nil] at hx1
          exact .inr ⟨c, [], x, by rw [hx1]; rfl, he, by simp, hx⟩
    · cases h

theorem afterExp_complete {s : Str} (h : IsExp s) : afterExp s = some [] := by
  rcases h with rfl | ⟨e, sign, r, rfl, he, hs, hr⟩
  · rfl
  · have h1 : e = 'e' ∨ e = 'E' := by simpa using he
    have h2 := someDigits_complete (r := []) hr (fun c hc => by cases hc)
    rw [List.append_nil] at h2
    rw [afterExp.eq_def]
    dsimp only
    rw [if_pos h1]
    simp only [List.mem_cons, List.not_mem_nil, or_false] at hs
    rcases hs with rfl | rfl | rfl
    · match r with
      | [] => exact absurd rfl hr.1
      | d :: r =>
        have hd := (digit_iff d).2 (hr.2 d (by simp))
        rw [List.nil_append]
        dsimp only
        rw [if_neg, h2]
        rintro (rfl | rfl) <;> cases hd
    · exact h2
    · exact h2

theorem exp_head {e : Str} (h : IsExp e) (c : Char) (hc : e.head? = some c) : c = 'e' ∨ c = 'E' := by
  rcases h with rfl | ⟨x, sign, r, rfl, he, _⟩
  · cases hc
  · cases hc; simpa using he

theorem isNumber_iff (t : Str) : isNumber t = true ↔ IsNumber t := by
  unfold isNumber
  rw [decide_eq_true_iff]
  constructor
  · intro h
    obtain ⟨x, hx, hx2⟩ := Option.bind_eq_some_iff.1 h
    obtain ⟨y, hy, hy2⟩ := Option.bind_eq_some_iff.1 hx
    obtain ⟨f, rfl, hf⟩ := afterFrac_sound hy2
    obtain ⟨i, hi1, hi⟩ := afterInt_sound hy
    have he := afterExp_sound hx2
    match t with
    | [] =>
      dsimp only at hi1
      rcases hi with rfl | ⟨c, r, rfl, _⟩ <;> cases hi1
    | c :: t =>
      dsimp only at hi1
      split_ifs at hi1 with h1
      · subst h1
        exact ⟨['-'], i, f, x, by rw [hi1]; simp, by simp, hi, hf, he⟩
      · exact ⟨[], i, f, x, by rw [hi1]; simp, by simp, hi, hf, he⟩
  · rintro ⟨m, i, f, e, rfl, hm, hi, hf, he⟩
    have n1 : NoDigit e := fun c hc => by rcases exp_head he c hc with rfl | rfl <;> rfl
    have n2 : e.head? ≠ some '.' := fun hc => by rcases exp_head he _ hc with h | h <;> cases h
    have n3 : NoDigit (f ++ e) := by
      rcases hf with rfl | ⟨d, rfl, _⟩
      · exact n1
      · intro c hc; cases hc; rfl
    have key : ((afterInt (i ++ (f ++ e))).bind afterFrac).bind afterExp = some [] := by
      rw [afterInt_complete hi n3, Option.bind_some, afterFrac_complete hf n1 n2, Option.bind_some, afterExp_complete he]
    simp only [List.mem_cons, List.not_mem_nil, or_false] at hm
    rcases hm with rfl | rfl
    · have : ∃ c r, i = c :: r ∧ c ≠ '-' := by
        rcases hi with rfl | ⟨c, r, rfl, hc, _⟩
        · exact ⟨_, _, rfl, by decide⟩
        · refine ⟨c, r, rfl, ?_⟩
          rintro rfl
          revert hc; decide
      obtain ⟨c, r, rfl, hc⟩ := this
      simp only [List.nil_append, List.cons_append, List.append_assoc]
      rw [if_neg hc]
      simpa using key
    · simp only [List.nil_append, List.cons_append, List.append_assoc]
      exact key

/-! ## values -/

/-- reads only values of the grammar -/
def Sound (val : Str → Option (J × Str)) : Prop := ∀ s j r, val s = some (j, r) → ∃ w t, s = w ++ t ++ r ∧ Space w ∧ IsValue j t

theorem elements_sound {val : Str → Option (J × Str)} (hv : Sound val) (k : Nat) :
    ∀ s l r, elements val k s = some (l, r) → ∃ t, s = t ++ ']' :: r ∧ Elements l t := by
  induction k with
  | zero => intro s l r h; cases h
  | succ k ih =>
    intro s l r h
    rw [elements] at h
    match hx : val s with
    | none => rw [hx] at h; cases h
    | some (j, x) =>
      rw [hx] at h
      dsimp only at h
      obtain ⟨w, t, rfl, hw, ht⟩ := hv _ _ _ hx
      obtain ⟨w', hw1, hw'⟩ := skip_split x
      match hs : skip x with
      | [] => rw [hs] at h; cases h
      | c :: y =>
        rw [hs] at h hw1
        dsimp only at h
        split_ifs at h with h1 h2
        · subst h1
          match he : elements val k y with
          | none => rw [he] at h; cases h
          | some (l', z) =>
            rw [he] at h
            cases h
            obtain ⟨u, rfl, hu⟩ := ih _ _ _ he
            exact ⟨w ++ t ++ w' ++ ',' :: u, by rw [hw1]; simp, .more hw ht hw' hu⟩
        · subst h2
          cases h
          exact ⟨w ++ t ++ w', by rw [hw1]; simp, .one hw ht hw'⟩

theorem memberName_sound {s n r : Str} (h : memberName s = some (n, r)) :
    ∃ w m x, s = w ++ m ++ x ++ ':' :: r ∧ Space w ∧ IsString n m ∧ Space x := by
  unfold memberName at h
  obtain ⟨w, hw1, hw⟩ := skip_split s
  match hs : skip s with
  | [] => rw [hs] at h; cases h
  | c :: y =>
    rw [hs] at h hw1
    dsimp only at h
    split_ifs at h with h1
    subst h1
    match hx : string y with
    | none => rw [hx] at h; cases h
    | some (n', z) =>
      rw [hx] at h
      dsimp only at h
      obtain ⟨m, hm1, hm⟩ := string_sound hx
      obtain ⟨x, hx1, hx'⟩ := skip_split z
      match hz : skip z with
      | [] => rw [hz] at h; cases h
      | d :: q =>
        rw [hz] at h hx1
        dsimp only at h
        split_ifs at h with h2
        subst h2
        cases h
        exact ⟨w, m, x, by rw [hw1, hm1, hx1]; simp, hw, hm, hx'⟩

theorem members_sound {val : Str → Option (J × Str)} (hv : Sound val) (k : Nat) :
    ∀ s l r, members val k s = some (l, r) → ∃ t, s = t ++ '}' :: r ∧ Members l t := by
  induction k with
  | zero => intro s l r h; cases h
  | succ k ih =>
    intro s l r h
    rw [members] at h
    match hn : memberName s with
    | none => rw [hn] at h; cases h
    | some (n, a) =>
      rw [hn] at h
      dsimp only at h
      obtain ⟨w, m, x, rfl, hw, hm, hx⟩ := memberName_sound hn
      match hj : val a with
      | none => rw [hj] at h; cases h
      | some (j, b) =>
        rw [hj] at h
        dsimp only at h
        obtain ⟨y, t, rfl, hy, ht⟩ := hv _ _ _ hj
        obtain ⟨w', hw1, hw'⟩ := skip_split b
        match hs : skip b with
        | [] => rw [hs] at h; cases h
        | c :: z =>
          rw [hs] at h hw1
          dsimp only at h
          split_ifs at h with h1 h2
          · subst h1
            match he : members val k z with
            | none => rw [he] at h; cases h
            | some (l', q) =>
              rw [he] at h
              cases h
              obtain ⟨u, rfl, hu⟩ := ih _ _ _ he
              exact ⟨w ++ m ++ x ++ ':' :: (y ++ t ++ w') ++ ',' :: u, by rw [hw1]; simp, .more hw hm hx hy ht hw' hu⟩
          · subst h2
            cases h
            exact ⟨w ++ m ++ x ++ ':' :: (y ++ t ++ w'), by rw [hw1]; simp, .one hw hm hx hy ht hw'⟩

theorem literal_sound {s t r : Str} {j j' : J} (h : literal s t j = some (j', r)) : s = t ++ r ∧ j' = j := by
  unfold literal at h
  split at h
  · rename_i hp
    obtain ⟨x, rfl⟩ := List.isPrefixOf_iff_prefix.1 hp
    rw [List.drop_left] at h
    cases h
    exact ⟨rfl, rfl⟩
  · cases h

theorem head_tail {s : Str} {c : Char} (h : s.head? = some c) : s = c :: s.tail := by
  match s with
  | [] => cases h
  | d :: s => cases h; rfl

theorem value_sound (n : Nat) : Sound (value n) := by
  induction n with
  | zero => intro s j r h; cases h
  | succ n ih =>
    intro s j r h
    rw [value] at h
    obtain ⟨w, hw1, hw⟩ := skip_split s
    match hs : skip s with
    | [] => rw [hs] at h; cases h
    | c :: x =>
      rw [hs] at h hw1
      dsimp only at h
      split_ifs at h with h1 h2 h3 h4 h5 h6 h7 h8 h9
      · subst h1
        match hx : string x with
        | none => rw [hx] at h; cases h
        | some (m, y) =>
          rw [hx] at h
          cases h
          obtain ⟨t, ht1, ht⟩ := string_sound hx
          exact ⟨w, t, by rw [hw1, ht1]; simp, hw, .str ht⟩
      · subst h2
        cases h
        obtain ⟨v, hv1, hv⟩ := skip_split x
        rw [head_tail h3] at hv1
        refine ⟨w, '[' :: (v ++ [']']), ?_, hw, .arrNil hv⟩
        rw [hw1]
        conv_lhs => rw [hv1]
        simp
      · subst h2
        match hx : elements (value n) (x.length + 1) x with
        | none => rw [hx] at h; cases h
        | some (l, y) =>
          rw [hx] at h
          cases h
          obtain ⟨t, ht1, ht⟩ := elements_sound ih _ _ _ _ hx
          exact ⟨w, '[' :: (t ++ [']']), by rw [hw1, ht1]; simp, hw, .arr ht⟩
      · subst h4
        cases h
        obtain ⟨v, hv1, hv⟩ := skip_split x
        rw [head_tail h5] at hv1
        refine ⟨w, '{' :: (v ++ ['}']), ?_, hw, .objNil hv⟩
        rw [hw1]
        conv_lhs => rw [hv1]
        simp
      · subst h4
        match hx : members (value n) (x.length + 1) x with
        | none => rw [hx] at h; cases h
        | some (l, y) =>
          rw [hx] at h
          cases h
          obtain ⟨t, ht1, ht⟩ := members_sound ih _ _ _ _ hx
          exact ⟨w, '{' :: (t ++ ['}']), by rw [hw1, ht1]; simp, hw, .obj ht⟩
      · obtain ⟨e1, rfl⟩ := literal_sound h
        exact ⟨w, _, by rw [hw1, e1, List.append_assoc], hw, .null⟩
      · obtain ⟨e1, rfl⟩ := literal_sound h
        exact ⟨w, _, by rw [hw1, e1, List.append_assoc], hw, .true⟩
      · obtain ⟨e1, rfl⟩ := literal_sound h
        exact ⟨w, _, by rw [hw1, e1, List.append_assoc], hw, .false⟩
      · cases h
        refine ⟨w, (c :: x).takeWhile inNumber, ?_, hw, .num ((isNumber_iff _).1 h9)⟩
        rw [hw1, List.append_assoc, List.takeWhile_append_dropWhile]

/-- `r` cannot continue a number -/
def Ends (r : Str) : Prop := ∀ c, r.head? = some c → inNumber c = false

theorem number_chars {t : Str} (h : IsNumber t) : ∀ c ∈ t, inNumber c = true := by
  obtain ⟨m, i, f, e, rfl, hm, hi, hf, he⟩ := h
  have hd : ∀ c : Char, c.isDigit = true → inNumber c = true := fun c hc => by simp [inNumber, hc]
  have hD : ∀ d, Digits d → ∀ c ∈ d, inNumber c = true := fun d h c hc => hd c ((digit_iff c).2 (h.2 c hc))
  intro c hc
  simp only [List.mem_append] at hc
  rcases hc with ((hc | hc) | hc) | hc
  · simp only [List.mem_cons, List.not_mem_nil, or_false] at hm
    rcases hm with rfl | rfl
    · cases hc
    · simp at hc; subst hc; rfl
  · rcases hi with rfl | ⟨x, y, rfl, hx, hy⟩
    · simp at hc; subst hc; rfl
    · rcases List.mem_cons.1 hc with rfl | hc
      · exact hd _ ((nonzero_iff _).1 hx).1
      · exact hd _ ((digit_iff _).2 (hy _ hc))
  · rcases hf with rfl | ⟨x, rfl, hx⟩
    · cases hc
    · rcases List.mem_cons.1 hc with rfl | hc
      · rfl
      · exact hD _ hx _ hc
  · rcases he with rfl | ⟨x, g, y, rfl, hx, hg, hy⟩
    · cases hc
    · rcases List.mem_cons.1 hc with rfl | hc
      · simp only [List.mem_cons, List.not_mem_nil, or_false] at hx
        rcases hx with rfl | rfl <;> rfl
      · rcases List.mem_append.1 hc with hc | hc
        · simp only [List.mem_cons, List.not_mem_nil, or_false] at hg
          rcases hg with rfl | rfl | rfl
          · cases hc
          · simp at hc; subst hc; rfl
          · simp at hc; subst hc; rfl
        · exact hD _ hy _ hc

theorem number_ne {t : Str} (h : IsNumber t) : ∃ c r, t = c :: r := by
  obtain ⟨m, i, f, e, rfl, hm, hi, hf, he⟩ := h
  match hx : m ++ i ++ f ++ e with
  | c :: r => exact ⟨c, r, rfl⟩
  | [] =>
    simp only [List.append_eq_nil_iff] at hx
    rcases hi with h | ⟨c, r, h, _⟩ <;> rw [h] at hx <;> simp at hx

theorem take_number {t r : Str} (h : ∀ c ∈ t, inNumber c = true) (hr : Ends r) :
    (t ++ r).takeWhile inNumber = t ∧ (t ++ r).dropWhile inNumber = r := by
  induction t with
  | nil =>
    match r with
    | [] => exact ⟨rfl, rfl⟩
    | c :: r => simp [hr c rfl]
  | cons c t ih =>
    have := ih fun x hx => h x (by simp [hx])
    simp [h c (by simp), this]

theorem number_head {c : Char} (h : inNumber c = true) :
    isSpace c = false ∧ c ≠ '"' ∧ c ≠ '[' ∧ c ≠ '{' ∧ c ≠ 'n' ∧ c ≠ 't' ∧ c ≠ 'f' := by
  have : c ∈ "0123456789".toList ∨ c = '-' ∨ c = '+' ∨ c = '.' ∨ c = 'e' ∨ c = 'E' := by
    rw [← digit_iff]
    simpa [inNumber, or_assoc] using h
  simp only [List.mem_cons, List.not_mem_nil, or_false, show "0123456789".toList = ['0', '1', '2', '3', '4', '5', '6', '7', '8', '9'] from rfl] at this
  rcases this with (rfl | rfl | rfl | rfl | rfl | rfl | rfl | rfl | rfl | rfl) | rfl | rfl | rfl | rfl | rfl <;> decide

theorem space_ends {w r : Str} (hw : Space w) (hr : Ends r) : Ends (w ++ r) := by
  intro c hc
  match w with
  | [] => exact hr c hc
  | d :: w =>
    cases hc
    have := hw c (by simp)
    simp only [List.mem_cons, List.not_mem_nil, or_false] at this
    rcases this with rfl | rfl | rfl | rfl <;> rfl

/-- reads every value of the grammar that is shorter than `n` -/
def Complete (n : Nat) (val : Str → Option (J × Str)) : Prop :=
  ∀ j t, t.length < n → IsValue j t → ∀ w r, Space w → ((∃ u, j = .num u) → Ends r) → val (w ++ t ++ r) = some (j, r)

theorem elements_complete {n : Nat} {val : Str → Option (J × Str)} (hv : Complete n val) (k : Nat) :
    ∀ l t r, t.length < k → t.length < n → Elements l t → elements val k (t ++ ']' :: r) = some (l, r) := by
  induction k with
  | zero => intro l t r h; cases h
  | succ k ih =>
    intro l t r hk hn h
    cases h with
    | @one j w t w' hw ht hw' =>
      simp only [List.length_append] at hk hn
      have e : w ++ t ++ w' ++ ']' :: r = w ++ t ++ (w' ++ ']' :: r) := by simp
      rw [elements, e, hv j t (by omega) ht w _ hw (fun _ => space_ends hw' fun c hc => by cases hc; rfl)]
      dsimp only
      rw [skip_cons hw' (by decide)]
      dsimp only
      rw [if_neg (by decide), if_pos rfl]
    | @more j w t w' u l hw ht hw' hu =>
      simp only [List.length_append, List.length_cons] at hk hn
      have e : w ++ t ++ w' ++ ',' :: u ++ ']' :: r = w ++ t ++ (w' ++ ',' :: (u ++ ']' :: r)) := by simp
      rw [elements, e, hv j t (by omega) ht w _ hw (fun _ => space_ends hw' fun c hc => by cases hc; rfl)]
      dsimp only
      rw [skip_cons hw' (by decide)]
      dsimp only
      rw [if_pos rfl, ih l u r (by omega) (by omega) hu]
      rfl

theorem memberName_complete {n w m x : Str} (hw : Space w) (hm : IsString n m) (hx : Space x) (r : Str) :
    memberName (w ++ m ++ x ++ ':' :: r) = some (n, r) := by
  obtain ⟨s, hs1, hs⟩ := string_complete hm (x ++ ':' :: r)
  have e : w ++ m ++ x ++ ':' :: r = w ++ '"' :: s := by rw [← hs1]; simp
  unfold memberName
  rw [e, skip_cons hw (by decide)]
  dsimp only
  rw [if_pos rfl, hs]
  dsimp only
  rw [skip_cons hx (by decide)]
  dsimp only
  rw [if_pos rfl]

theorem members_complete {n : Nat} {val : Str → Option (J × Str)} (hv : Complete n val) (k : Nat) :
    ∀ l t r, t.length < k → t.length < n → Members l t → members val k (t ++ '}' :: r) = some (l, r) := by
  induction k with
  | zero => intro l t r h; cases h
  | succ k ih =>
    intro l t r hk hn h
    cases h with
    | @one nm j w m x y t w' hw hm hx hy ht hw' =>
      simp only [List.length_append, List.length_cons] at hk hn
      have e : w ++ m ++ x ++ ':' :: (y ++ t ++ w') ++ '}' :: r = w ++ m ++ x ++ ':' :: (y ++ t ++ (w' ++ '}' :: r)) := by simp
      rw [members, e, memberName_complete hw hm hx]
      dsimp only
      rw [hv j t (by omega) ht y _ hy (fun _ => space_ends hw' fun c hc => by cases hc; rfl)]
      dsimp only
      rw [skip_cons hw' (by decide)]
      dsimp only
      rw [if_neg (by decide), if_pos rfl]
    | @more nm j w m x y t w' u l hw hm hx hy ht hw' hu =>
      simp only [List.length_append, List.length_cons] at hk hn
      have e : w ++ m ++ x ++ ':' :: (y ++ t ++ w') ++ ',' :: u ++ '}' :: r = w ++ m ++ x ++ ':' :: (y ++ t ++ (w' ++ ',' :: (u ++ '}' :: r))) := by simp
      rw [members, e, memberName_complete hw hm hx]
      dsimp only
      rw [hv j t (by omega) ht y _ hy (fun _ => space_ends hw' fun c hc => by cases hc; rfl)]
      dsimp only
      rw [skip_cons hw' (by decide)]
      dsimp only
      rw [if_pos rfl, ih l u r (by omega) (by omega) hu]
      rfl

theorem value_head {j : J} {t : Str} (h : IsValue j t) : ∃ c x, t = c :: x ∧ isSpace c = false ∧ c ≠ ']' ∧ c ≠ '}' := by
  cases h with
  | null => exact ⟨_, _, rfl, by decide, by decide, by decide⟩
  | true => exact ⟨_, _, rfl, by decide, by decide, by decide⟩
  | false => exact ⟨_, _, rfl, by decide, by decide, by decide⟩
  | num h =>
    obtain ⟨c, r, rfl⟩ := number_ne h
    have hc := number_chars h c (by simp)
    refine ⟨c, r, rfl, (number_head hc).1, ?_, ?_⟩ <;> (rintro rfl; cases hc)
  | str h => obtain ⟨l, u, rfl, _⟩ := h; exact ⟨_, _, rfl, by decide, by decide, by decide⟩
  | arrNil => exact ⟨_, _, rfl, by decide, by decide, by decide⟩
  | arr => exact ⟨_, _, rfl, by decide, by decide, by decide⟩
  | objNil => exact ⟨_, _, rfl, by decide, by decide, by decide⟩
  | obj => exact ⟨_, _, rfl, by decide, by decide, by decide⟩

theorem elements_head {l : List J} {t : Str} (h : Elements l t) (r : Str) : (skip (t ++ r)).head? ≠ some ']' := by
  cases h with
  | @one j w t w' hw ht hw' =>
    obtain ⟨c, x, rfl, h1, h2, _⟩ := value_head ht
    have : w ++ (c :: x) ++ w' ++ r = w ++ c :: (x ++ w' ++ r) := by simp
    rw [this, skip_cons hw h1]
    intro e; cases e; exact h2 rfl
  | @more j w t w' u l hw ht hw' hu =>
    obtain ⟨c, x, rfl, h1, h2, _⟩ := value_head ht
    have : w ++ (c :: x) ++ w' ++ ',' :: u ++ r = w ++ c :: (x ++ w' ++ ',' :: u ++ r) := by simp
    rw [this, skip_cons hw h1]
    intro e; cases e; exact h2 rfl

theorem members_head {l : List (Str × J)} {t : Str} (h : Members l t) (r : Str) : (skip (t ++ r)).head? ≠ some '}' := by
  cases h with
  | @one nm j w m x y t w' hw hm hx hy ht hw' =>
    obtain ⟨q, u, rfl, _⟩ := hm
    have : w ++ ('"' :: (u ++ ['"'])) ++ x ++ ':' :: (y ++ t ++ w') ++ r = w ++ '"' :: (u ++ ['"'] ++ x ++ ':' :: (y ++ t ++ w') ++ r) := by simp
    rw [this, skip_cons hw (by decide)]
    intro e; cases e
  | @more nm j w m x y t w' v l hw hm hx hy ht hw' hu =>
    obtain ⟨q, u, rfl, _⟩ := hm
    have : w ++ ('"' :: (u ++ ['"'])) ++ x ++ ':' :: (y ++ t ++ w') ++ ',' :: v ++ r =
      w ++ '"' :: (u ++ ['"'] ++ x ++ ':' :: (y ++ t ++ w') ++ ',' :: v ++ r) := by simp
    rw [this, skip_cons hw (by decide)]
    intro e; cases e

theorem literal_complete (t r : Str) (j : J) : literal (t ++ r) t j = some (j, r) := by
  unfold literal
  rw [if_pos (List.isPrefixOf_iff_prefix.2 ⟨r, rfl⟩), List.drop_left]

theorem value_complete (n : Nat) : Complete n (value n) := by
  induction n with
  | zero => intro j t h; cases h
  | succ n ih =>
    intro j t hn ht w r hw hr
    obtain ⟨c, x, rfl, hc, _⟩ := value_head ht
    have e : w ++ (c :: x) ++ r = w ++ c :: (x ++ r) := by simp
    rw [value, e, skip_cons hw hc]
    dsimp only
    simp only [List.length_cons] at hn
    generalize hq : c :: x = q at ht
    cases ht with
    | null => cases hq; exact literal_complete "null".toList r _
    | true => cases hq; exact literal_complete "true".toList r _
    | false => cases hq; exact literal_complete "false".toList r _
    | num h =>
      subst hq
      have hall := number_chars h
      obtain ⟨_, a1, a2, a3, a4, a5, a6⟩ := number_head (hall c (by simp))
      have := take_number hall (hr ⟨_, rfl⟩)
      rw [List.cons_append] at this
      rw [if_neg a1, if_neg a2, if_neg a3, if_neg a4, if_neg a5, if_neg a6, this.1, this.2, if_pos ((isNumber_iff _).2 h)]
    | str h =>
      subst hq
      obtain ⟨s, hs1, hs⟩ := string_complete h r
      cases hs1
      have hs : string (x ++ r) = _ := hs
      rw [if_pos rfl, hs]
      rfl
    | @arrNil v hv =>
      cases hq
      have : v ++ [']'] ++ r = v ++ ']' :: r := by simp
      rw [if_neg (by decide), if_pos rfl, this, skip_cons hv (by decide), List.head?_cons, if_pos rfl]
      rfl
    | @arr l t h =>
      cases hq
      have : t ++ [']'] ++ r = t ++ ']' :: r := by simp
      simp only [List.length_append, List.length_cons, List.length_nil] at hn
      rw [if_neg (by decide), if_pos rfl, this, if_neg (elements_head h _), elements_complete ih _ l t r (by simp; omega) (by omega) h]
      rfl
    | @objNil v hv =>
      cases hq
      have : v ++ ['}'] ++ r = v ++ '}' :: r := by simp
      rw [if_neg (by decide), if_neg (by decide), if_pos rfl, this, skip_cons hv (by decide), List.head?_cons, if_pos rfl]
      rfl
    | @obj l t h =>
      cases hq
      have : t ++ ['}'] ++ r = t ++ '}' :: r := by simp
      simp only [List.length_append, List.length_cons, List.length_nil] at hn
      rw [if_neg (by decide), if_neg (by decide), if_pos rfl, this, if_neg (members_head h _), members_complete ih _ l t r (by simp; omega) (by omega) h]
      rfl

/-- **C132**: the texts that are read are exactly the JSON texts, and each is read as the value it stands for -/
theorem c132_text (s : Str) (j : J) : parse s = some j ↔ IsText j s := by
  unfold parse
  constructor
  · intro h
    match hv : value (s.length + 1) s with
    | none => rw [hv] at h; cases h
    | some (j', r) =>
      rw [hv] at h
      dsimp only at h
      split_ifs at h with h1
      cases h
      obtain ⟨w, t, hs, hw, ht⟩ := value_sound _ _ _ _ hv
      exact ⟨w, t, r, hs, hw, ht, space_of_skip h1⟩
  · rintro ⟨w, t, w', rfl, hw, ht, hw'⟩
    rw [value_complete _ j t (by simp; omega) ht w w' hw]
    · dsimp only
      rw [if_pos (skip_space hw')]
    · intro _
      have := space_ends hw' (r := []) fun c hc => by cases hc
      rwa [List.append_nil] at this

/-- a text stands for at most one value -/
theorem c132_unambiguous {s : Str} {j j' : J} (h : IsText j s) (h' : IsText j' s) : j = j' := by
  have e := (c132_text s j).2 h
  rw [(c132_text s j').2 h'] at e
  exact (Option.some.inj e).symm

/-- The reader of requests takes the value at the beginning of the text and ignores everything behind it. (A number goes on as far as it can.) -/
theorem c132_first {j : J} {w t : Str} (hw : Space w) (ht : IsValue j t) (hj : ∀ n, j ≠ .num n) (r : Str) : firstValue (w ++ t ++ r) = some j := by
  unfold firstValue
  rw [value_complete _ j t (by simp; omega) ht w r hw (fun ⟨n, e⟩ => absurd e (hj n))]
  rfl

/-- what the reader of requests takes is a value at the beginning of the text -/
theorem c132_first_value {s : Str} {j : J} (h : firstValue s = some j) : ∃ w t r, s = w ++ t ++ r ∧ Space w ∧ IsValue j t := by
  unfold firstValue at h
  match hv : value (s.length + 1) s with
  | none => rw [hv] at h; cases h
  | some (j', r) =>
    rw [hv] at h
    cases h
    obtain ⟨w, t, hs, hw, ht⟩ := value_sound _ _ _ _ hv
    exact ⟨w, t, r, hs, hw, ht⟩

/-! ## texts that are written -/

theorem pieces_append {l l' : List Piece} {u u' : Str} (h : Pieces l u) (h' : Pieces l' u') : Pieces (l ++ l') (u ++ u') := by
  induction h with
  | nil => exact h'
  | cons hp _ ih => rw [List.append_assoc]; exact .cons hp ih

theorem hex_digit {n : Nat} (h : n < 16) : Hex (hexDigit n) n := by
  refine .inl ?_
  interval_cases n <;> rfl

/-- a piece that stands for one character by itself -/
def Alone (p : Piece) (c : Char) : Prop := p = .char c ∨ p = .code c.toNat

theorem escape_piece (c : Char) : ∃ p, Alone p c ∧ IsPiece p (escape c) := by
  unfold escape
  split_ifs with h1 h2 h3 h4 h5 h6 h7 h8
  · subst h1; exact ⟨.char '"', .inl rfl, .short _ _ (by simp)⟩
  · subst h2; exact ⟨.char '\\', .inl rfl, .short _ _ (by simp)⟩
  · subst h3; exact ⟨.char '\n', .inl rfl, .short _ _ (by simp)⟩
  · subst h4; exact ⟨.char '\r', .inl rfl, .short _ _ (by simp)⟩
  · subst h5; exact ⟨.char '\t', .inl rfl, .short _ _ (by simp)⟩
  · have hc : c.toNat < 256 := by
      rcases h6 with h | rfl | rfl | rfl
      · omega
      · decide
      · decide
      · decide
    have := IsPiece.code '0' '0' (hexDigit (c.toNat / 16)) (hexDigit (c.toNat % 16)) 0 0 (c.toNat / 16) (c.toNat % 16) (.inl rfl) (.inl rfl)
      (hex_digit (by omega)) (hex_digit (by omega))
    rw [show 0 * 4096 + 0 * 256 + c.toNat / 16 * 16 + c.toNat % 16 = c.toNat by omega] at this
    exact ⟨_, .inr rfl, this⟩
  · subst h7
    have := IsPiece.code '2' '0' '2' '8' 2 0 2 8 (.inl rfl) (.inl rfl) (.inl rfl) (.inl rfl)
    exact ⟨_, .inr rfl, this⟩
  · subst h8
    have := IsPiece.code '2' '0' '2' '9' 2 0 2 9 (.inl rfl) (.inl rfl) (.inl rfl) (.inl rfl)
    exact ⟨_, .inr rfl, this⟩
  · exact ⟨.char c, .inl rfl, .plain c (by omega) h1 h2⟩

theorem escapes (s : Str) : ∃ l, Pieces l (s.flatMap escape) ∧ Means l s := by
  induction s with
  | nil => exact ⟨[], .nil, .nil⟩
  | cons c s ih =>
    obtain ⟨l, h1, h2⟩ := ih
    obtain ⟨p, hp, hq⟩ := escape_piece c
    refine ⟨p :: l, ?_, ?_⟩
    · rw [List.flatMap_cons]; exact .cons hq h1
    · rcases hp with rfl | rfl
      · exact .char c h2
      · exact .code c h2

/-- a string is written as a text that stands for it -/
theorem c132_quote (s : Str) : IsString s (quote s) := by
  obtain ⟨l, h1, h2⟩ := escapes s
  exact ⟨l, _, rfl, h1, h2⟩

/-- the text of a string holds no character that ends a line or a script -/
theorem c132_quote_plain (s : Str) : ∀ c ∈ quote s, 32 ≤ c.toNat ∧ c ≠ '<' ∧ c ≠ '>' ∧ c ≠ '&' ∧ c ≠ '\u2028' ∧ c ≠ '\u2029' := by
  have hx : ∀ n, n < 16 → 32 ≤ (hexDigit n).toNat ∧ hexDigit n ≠ '<' ∧ hexDigit n ≠ '>' ∧ hexDigit n ≠ '&' ∧ hexDigit n ≠ '\u2028' ∧
      hexDigit n ≠ '\u2029' := by intro n hn; interval_cases n <;> decide
  have key : ∀ d, ∀ c ∈ escape d, 32 ≤ c.toNat ∧ c ≠ '<' ∧ c ≠ '>' ∧ c ≠ '&' ∧ c ≠ '\u2028' ∧ c ≠ '\u2029' := by
    intro d c hc
    unfold escape at hc
    split_ifs at hc with h1 h2 h3 h4 h5 h6 h7 h8
    any_goals (simp at hc; rcases hc with rfl | rfl <;> decide)
    · have hd : d.toNat < 256 := by
        rcases h6 with h | rfl | rfl | rfl
        · omega
        · decide
        · decide
        · decide
      simp only [List.mem_cons, List.not_mem_nil, or_false] at hc
      rcases hc with rfl | rfl | rfl | rfl | rfl | rfl
      · decide
      · decide
      · decide
      · decide
      · exact hx _ (by omega)
      · exact hx _ (by omega)
    · simp at hc; rcases hc with rfl | rfl | rfl | rfl | rfl | rfl <;> decide
    · simp at hc; rcases hc with rfl | rfl | rfl | rfl | rfl | rfl <;> decide
    · simp at hc
      subst hc
      push Not at h6
      exact ⟨h6.1, h6.2.1, h6.2.2.1, h6.2.2.2, h7, h8⟩
  intro c hc
  unfold quote at hc
  rcases List.mem_cons.1 hc with rfl | hc
  · decide
  · rcases List.mem_append.1 hc with hc | hc
    · obtain ⟨d, _, hd⟩ := List.mem_flatMap.1 hc
      exact key d c hd
    · simp at hc; subst hc; decide

theorem nat_digits (n : Nat) : ∀ c ∈ natText n, c.isDigit = true := fun _ hc => Nat.isDigit_of_mem_toDigits (by decide) (by decide) hc

theorem nat_int (n : Nat) : IsInt (natText n) := by
  induction n using Nat.strong_induction_on with
  | _ n ih =>
    unfold natText
    rw [Nat.toDigits_eq_if (by decide)]
    split
    · rename_i h
      by_cases h0 : n = 0
      · subst h0; exact .inl rfl
      · refine .inr ⟨_, [], rfl, ?_, by simp⟩
        interval_cases n <;> first | exact absurd rfl h0 | decide
    · rename_i h
      have hd : Nat.digitChar (n % 10) ∈ "0123456789".toList := by
        have : n % 10 < 10 := Nat.mod_lt _ (by decide)
        generalize n % 10 = k at this
        interval_cases k <;> decide
      rcases ih (n / 10) (by omega) with h1 | ⟨c, r, h1, h2, h3⟩
      · exfalso
        have : (natText (n / 10)) = natText 0 := h1
        have e := congrArg (fun l => Nat.ofDigitChars 10 l 0) this
        unfold natText at e
        simp only [Nat.ofDigitChars_ten_toDigits] at e
        omega
      · refine .inr ⟨c, r ++ [Nat.digitChar (n % 10)], ?_, h2, ?_⟩
        · unfold natText at h1; rw [h1]; simp
        · intro d hd'
          rcases List.mem_append.1 hd' with h | h
          · exact h3 d h
          · simp at h; subst h; exact hd

theorem decimal_nat (n : Nat) : decimal (natText n) = n := by
  have : ∀ (l : Str) (a : Nat), (∀ c ∈ l, c.isDigit = true) → l.foldl (fun a c => a * 10 + (c.toNat - 48)) a = Nat.ofDigitChars 10 l a := by
    intro l
    induction l with
    | nil => intro a _; rfl
    | cons c l ih =>
      intro a h
      rw [List.foldl_cons, ih _ fun x hx => h x (by simp [hx])]
      rw [Nat.ofDigitChars_cons, Nat.mul_comm]
      rfl
  unfold decimal
  rw [this _ _ (nat_digits n)]
  exact Nat.ofDigitChars_ten_toDigits

theorem nat_number (n : Nat) : IsNumber (natText n) := ⟨[], natText n, [], [], by simp, by simp, nat_int n, .inl rfl, .inl rfl⟩

theorem int_number (n : Int) : IsNumber (intText n) := by
  cases n with
  | ofNat n => exact nat_number n
  | negSucc n => exact ⟨['-'], natText (n + 1), [], [], by simp [intText], by simp, nat_int _, .inl rfl, .inl rfl⟩

/-- whole numbers are written as JSON numbers -/
theorem c132_number (n : Int) : IsValue (.num (intText n)) (intText n) := .num (int_number n)

theorem nat_value (n : Nat) : IsValue (.num (natText n)) (natText n) := .num (nat_number n)

/-- the texts of base64 need no escapes -/
theorem base64_string (b : Bytes) : IsString (Base64.encode b) (bytesText b) := by
  have hp : ∀ s : Str, (∀ c ∈ s, 32 ≤ c.toNat ∧ c ≠ '"' ∧ c ≠ '\\') → ∃ l, Pieces l s ∧ Means l s := by
    intro s
    induction s with
    | nil => intro _; exact ⟨[], .nil, .nil⟩
    | cons c s ih =>
      intro h
      obtain ⟨l, h1, h2⟩ := ih fun d hd => h d (by simp [hd])
      obtain ⟨a1, a2, a3⟩ := h c (by simp)
      exact ⟨.char c :: l, .cons (.plain c a1 a2 a3) h1, .char c h2⟩
  have hc : ∀ c ∈ Base64.encode b, 32 ≤ c.toNat ∧ c ≠ '"' ∧ c ≠ '\\' := by
    have hL : ∀ n, 32 ≤ (Base64.letter n).toNat ∧ Base64.letter n ≠ '"' ∧ Base64.letter n ≠ '\\' := by
      intro n
      by_cases hn : n < 64
      · interval_cases n <;> decide
      · have : Base64.letter n = 'A' := by
          unfold Base64.letter
          have : Base64.alphabet.length = 64 := by decide
          rw [List.getD_eq_getElem?_getD, List.getElem?_eq_none (by omega)]
          rfl
        rw [this]; decide
    have hE : 32 ≤ '='.toNat ∧ '=' ≠ '"' ∧ '=' ≠ '\\' := by decide
    fun_induction Base64.encode b with
    | case1 => intro c hc; cases hc
    | case2 a =>
      intro c hc
      simp only [List.mem_cons, List.not_mem_nil, or_false] at hc
      rcases hc with rfl | rfl | rfl | rfl
      · exact hL _
      · exact hL _
      · exact hE
      · exact hE
    | case3 a b =>
      intro c hc
      simp only [List.mem_cons, List.not_mem_nil, or_false] at hc
      rcases hc with rfl | rfl | rfl | rfl
      · exact hL _
      · exact hL _
      · exact hL _
      · exact hE
    | case4 a b c r ih =>
      intro d hd
      simp only [List.mem_cons] at hd
      rcases hd with rfl | rfl | rfl | rfl | hd
      · exact hL _
      · exact hL _
      · exact hL _
      · exact hL _
      · exact ih d hd
  obtain ⟨l, h1, h2⟩ := hp _ hc
  exact ⟨l, _, rfl, h1, h2⟩

theorem no_space : Space [] := fun c hc => by cases hc

theorem commas_elements {l : List (J × Str)} (h : ∀ p ∈ l, IsValue p.1 p.2) (hl : l ≠ []) : Elements (l.map Prod.fst) (commas (l.map Prod.snd)) := by
  induction l with
  | nil => exact absurd rfl hl
  | cons p l ih =>
    have hp := h p (by simp)
    match l with
    | [] =>
      have := Elements.one no_space hp no_space
      simpa [commas] using this
    | q :: l =>
      have := Elements.more no_space hp no_space (ih (fun x hx => h x (by simp at hx ⊢; tauto)) (by simp))
      simpa [commas] using this

/-- arrays are written as texts that stand for them -/
theorem arr_value {l : List (J × Str)} (h : ∀ p ∈ l, IsValue p.1 p.2) : IsValue (.arr (l.map Prod.fst)) (arrText (l.map Prod.snd)) := by
  match l with
  | [] => exact .arrNil no_space
  | p :: l => exact .arr (commas_elements h (by simp))

theorem commas_members {l : List (String × J × Str)} (h : ∀ p ∈ l, IsValue p.2.1 p.2.2) (hl : l ≠ []) :
    Members (l.map fun p => (p.1.toList, p.2.1)) (commas (l.map fun p => quote p.1.toList ++ ':' :: p.2.2)) := by
  induction l with
  | nil => exact absurd rfl hl
  | cons p l ih =>
    have hp := h p (by simp)
    match l with
    | [] =>
      have := Members.one no_space (c132_quote p.1.toList) no_space no_space hp no_space
      simpa [commas] using this
    | q :: l =>
      have := Members.more no_space (c132_quote p.1.toList) no_space no_space hp no_space (ih (fun x hx => h x (by simp at hx ⊢; tauto)) (by simp))
      simpa [commas] using this

/-- structs are written as texts that stand for them -/
theorem obj_value {l : List (String × J × Str)} (h : ∀ p ∈ l, IsValue p.2.1 p.2.2) :
    IsValue (.obj (l.map fun p => (p.1.toList, p.2.1))) (objText (l.map fun p => (p.1, p.2.2))) := by
  unfold objText
  rw [List.map_map]
  match l with
  | [] => exact .objNil no_space
  | p :: l => exact .obj (commas_members h (by simp))

/-- a text that stands for a value is read as that value -/
theorem parse_value {j : J} {t : Str} (h : IsValue j t) : parse t = some j := (c132_text t j).2 ⟨[], t, [], by simp, no_space, h, no_space⟩

/-! ## examples -/

/-- a text with spaces, numbers, escapes, a pair of surrogates and a lone one -/
def sample : Str := " {\"a\" : [1, -2.5e3, \"x\\u0041\\ud83d\\ude00\\ud800\"],\n\"b\":{}, \"a\":null}".toList

/-- the value of that text -/
def isSample : Option J → Bool
  | some (.obj [(a, .arr [.num x, .num y, .str z]), (b, .obj []), (c, .null)]) =>
    a = ['a'] && x = ['1'] && y = "-2.5e3".toList && z = ['x', 'A', Char.ofNat 0x1F600, '\ufffd'] && b = ['b'] && c = ['a']
  | _ => false

/-- the hypothesis of `c132_unambiguous` is met by a text of some size -/
example : isSample (parse sample) = true ∧ ∃ j, IsText j sample := by
  have h : isSample (parse sample) = true := by decide +kernel
  refine ⟨h, ?_⟩
  match hp : parse sample with
  | none => rw [hp] at h; cases h
  | some j => exact ⟨j, (c132_text _ _).1 hp⟩

/-- texts that are refused -/
example : (["[1,]", "01", "\"\t\"", "{\"a\":1", "nul", "1 2", "{a:1}", "\"\\x\"", ".5", ""].all fun t => (parse t.toList).isNone) = true := by
  decide +kernel

/-- bytes that are no characters -/
example : runes [0x61, 0xC3, 0xA9, 0xFF, 0xC3, 0x22] = ['a', 'é', '\ufffd', '\ufffd', '"'] := by decide +kernel

/-- a value with something behind it (`c132_first`) -/
example : firstValue "{} and more".toList = some (.obj []) :=
  c132_first (w := []) (t := ['{', '}']) no_space (.objNil no_space) (fun _ e => by cases e) " and more".toList

end Verif.Props.JsonTexts
