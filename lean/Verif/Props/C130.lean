import Verif.Spec.Protobuf
import Verif.Props.C97_C98
import Verif.Props.C95_C96
import Mathlib.Tactic.Linarith

/-!
# C130: the bytes of join messages and notices

What a node writes as a join message or a notice is read by every other node as the same message.
-/
set_option linter.unusedSectionVars false
namespace Verif.Props.Protobuf
open Verif.Go Verif.JoinParty Verif.JoinNet Verif.Protobuf Verif.Spec.Protobuf

/-! ## varints -/

/-- a varint of at most `k` bytes and 7 * (k - 1) + 1 bits -/
def Var (k : Nat) (b : Bytes) (n : Nat) : Prop :=
  ∃ (front : Bytes) (last : UInt8), b = front ++ [last] ∧ (∀ x ∈ front, 128 ≤ x.toNat) ∧ last.toNat < 128 ∧ b.length ≤ k ∧
    Nat.ofDigits 128 (b.map fun x => x.toNat % 128) = n ∧ n < 2 * 128 ^ (k - 1)

theorem isVarint_iff (b : Bytes) (n : Nat) : IsVarint b n ↔ Var 10 b n := by
  unfold IsVarint Var
  rw [show 2 * 128 ^ (10 - 1) = 2 ^ 64 by norm_num]

theorem var_cons {k : Nat} {x : UInt8} {b : Bytes} {n : Nat} (hb : b ≠ []) :
    Var (k + 1) (x :: b) n ↔ 128 ≤ x.toNat ∧ ∃ v, Var k b v ∧ n = x.toNat - 128 + 128 * v := by
  have hx : 128 ≤ x.toNat → x.toNat % 128 = x.toNat - 128 := by
    have := x.toNat_lt
    omega
  constructor
  · rintro ⟨front, last, h1, h2, h3, h4, h5, h6⟩
    cases front with
    | nil => simp at h1; exact absurd h1.2 hb
    | cons y front =>
      rw [List.cons_append] at h1
      injection h1 with h1 h1'
      subst h1
      have hx' := h2 x (by simp)
      have hlen : 1 ≤ k := by
        rw [h1'] at h4
        simp at h4
        omega
      obtain ⟨k, rfl⟩ := Nat.exists_eq_add_of_le' hlen
      refine ⟨hx', _, ⟨front, last, h1', fun z hz => h2 z (by simp [hz]), h3, by simpa using h4, rfl, ?_⟩, ?_⟩
      · rw [List.map_cons, Nat.ofDigits_cons] at h5
        simp only [Nat.add_sub_cancel] at h6 ⊢
        rw [pow_succ] at h6
        omega
      · rw [← h5, List.map_cons, Nat.ofDigits_cons, hx hx']
  · rintro ⟨hx', v, ⟨front, last, h1, h2, h3, h4, h5, h6⟩, rfl⟩
    have hlen : 1 ≤ k := by
      rw [h1] at h4
      simp at h4
      omega
    obtain ⟨k, rfl⟩ := Nat.exists_eq_add_of_le' hlen
    refine ⟨x :: front, last, by rw [h1]; rfl, ?_, h3, by simpa using h4, ?_, ?_⟩
    · intro z hz
      rcases List.mem_cons.1 hz with rfl | hz
      · exact hx'
      · exact h2 z hz
    · rw [List.map_cons, Nat.ofDigits_cons, hx hx', h5]
    · simp only [Nat.add_sub_cancel] at h6 ⊢
      rw [pow_succ]
      have := x.toNat_lt
      omega

theorem var_one {k : Nat} {x : UInt8} {n : Nat} : Var (k + 1) [x] n ↔ x.toNat < 128 ∧ x.toNat = n ∧ (k = 0 → x.toNat ≤ 1) := by
  constructor
  · rintro ⟨front, last, h1, h2, h3, h4, h5, h6⟩
    have : front = [] ∧ last = x := by
      cases front with
      | nil => simp at h1; exact ⟨rfl, h1.symm⟩
      | cons y f => simp at h1
    obtain ⟨rfl, rfl⟩ := this
    simp [Nat.mod_eq_of_lt h3] at h5
    refine ⟨h3, h5, ?_⟩
    rintro rfl
    simp at h6
    omega
  · rintro ⟨h1, h2, h3⟩
    refine ⟨[], x, rfl, by simp, h1, by simp, by simp [Nat.mod_eq_of_lt h1]; exact h2, ?_⟩
    rw [← h2]
    simp only [Nat.add_sub_cancel]
    cases k with
    | zero => have := h3 rfl; simp; omega
    | succ k => rw [pow_succ]; have := Nat.one_le_pow k 128 (by omega); omega

theorem var_ne {k : Nat} {b : Bytes} {n : Nat} (h : Var k b n) : b ≠ [] := by
  obtain ⟨front, last, rfl, -⟩ := h
  simp

theorem readVarintAux_iff (k : Nat) (b : Bytes) (n : Nat) (r : Bytes) : readVarintAux k b = some (n, r) ↔ ∃ p, b = p ++ r ∧ Var k p n := by
  induction k generalizing b n with
  | zero =>
    refine ⟨fun h => by simp [readVarintAux] at h, ?_⟩
    rintro ⟨p, -, front, last, rfl, -, -, h, -⟩
    simp at h
  | succ k ih =>
    cases b with
    | nil =>
      refine ⟨fun h => by simp [readVarintAux] at h, ?_⟩
      rintro ⟨p, h, hp⟩
      exact absurd (List.append_eq_nil_iff.1 h.symm).1 (var_ne hp)
    | cons x xs =>
      rw [readVarintAux]
      by_cases hx : x.toNat < 128
      · rw [if_pos hx]
        constructor
        · intro h
          split at h
          · cases h
          · rename_i hk
            cases h
            exact ⟨[x], rfl, var_one.2 ⟨hx, rfl, fun h => by omega⟩⟩
        · rintro ⟨p, h, hp⟩
          cases p with
          | nil => exact absurd rfl (var_ne hp)
          | cons y p =>
            injection h with h1 h2
            subst h1
            cases p with
            | nil =>
              obtain ⟨-, h3, h4⟩ := var_one.1 hp
              rw [if_neg (by omega), h3, h2]
              rfl
            | cons z p =>
              have := ((var_cons (by simp)).1 hp).1
              omega
      · rw [if_neg hx]
        constructor
        · intro h
          cases hr : readVarintAux k xs with
          | none => rw [hr] at h; cases h
          | some vr =>
            obtain ⟨v, r'⟩ := vr
            rw [hr] at h
            simp only [Option.map_some, Option.some.injEq, Prod.mk.injEq] at h
            obtain ⟨rfl, rfl⟩ := h
            obtain ⟨p, rfl, hp⟩ := (ih _ _).1 hr
            exact ⟨x :: p, rfl, (var_cons (var_ne hp)).2 ⟨by omega, v, hp, rfl⟩⟩
        · rintro ⟨p, h, hp⟩
          cases p with
          | nil => exact absurd rfl (var_ne hp)
          | cons y p =>
            injection h with h1 h2
            subst h1
            cases p with
            | nil => exact absurd (var_one.1 hp).1 hx
            | cons z p =>
              obtain ⟨-, v, hv, rfl⟩ := (var_cons (by simp)).1 hp
              rw [(ih _ _).2 ⟨_, h2, hv⟩]
              rfl

theorem readVarint_iff (b : Bytes) (n : Nat) (r : Bytes) : readVarint b = some (n, r) ↔ ∃ p, b = p ++ r ∧ IsVarint p n := by
  simp only [isVarint_iff]
  exact readVarintAux_iff 10 b n r

theorem varintAux_var (k n : Nat) (hn : n < 2 * 128 ^ k) : Var (k + 1) (varintAux (k + 1) n) n := by
  induction k generalizing n with
  | zero =>
    have : n < 2 := by simpa using hn
    rw [varintAux, if_pos (by omega)]
    refine var_one.2 ⟨?_, ?_, ?_⟩ <;> simp <;> omega
  | succ k ih =>
    rw [varintAux]
    by_cases h : n < 128
    · rw [if_pos h]
      refine var_one.2 ⟨?_, ?_, ?_⟩ <;> simp <;> omega
    · rw [if_neg h]
      have h1 : n / 128 < 2 * 128 ^ k := by
        rw [pow_succ] at hn
        omega
      have := ih _ h1
      refine (var_cons (var_ne this)).2 ⟨?_, _, this, ?_⟩ <;> simp <;> omega

theorem varint_is (n : Nat) (h : n < 2 ^ 64) : IsVarint (varint n) n := by
  rw [isVarint_iff]
  exact varintAux_var 9 n (by rw [show 2 * 128 ^ 9 = 2 ^ 64 by norm_num]; exact h)

/-! ## fields -/

theorem isVarint_ne {b : Bytes} {n : Nat} (h : IsVarint b n) : b ≠ [] := by
  obtain ⟨front, last, rfl, -⟩ := h
  simp

theorem isTag_ne {b : Bytes} {num typ : Nat} (h : IsTag b num typ) : 1 ≤ b.length := List.length_pos_iff.2 (isVarint_ne h.1)

theorem readTag_iff (b : Bytes) (num typ : Nat) (r : Bytes) : readTag b = some (num, typ, r) ↔ ∃ p, b = p ++ r ∧ IsTag p num typ := by
  unfold readTag
  constructor
  · intro h
    split at h
    · cases h
    · rename_i t r' hv
      split at h
      · cases h
      · cases h
        obtain ⟨p, rfl, hp⟩ := (readVarint_iff _ _ _).1 hv
        refine ⟨p, rfl, ?_, by omega, by omega, by omega⟩
        rwa [show t / 8 * 8 + t % 8 = t by omega]
  · rintro ⟨p, rfl, hp, h1, h2, h3⟩
    rw [(readVarint_iff _ _ _).2 ⟨p, rfl, hp⟩]
    dsimp only
    rw [if_neg (by omega), show (num * 8 + typ) / 8 = num by omega, show (num * 8 + typ) % 8 = typ by omega]

theorem readFixed_iff (n : Nat) (b r : Bytes) : readFixed n b = some r ↔ ∃ p, b = p ++ r ∧ p.length = n := by
  unfold readFixed
  constructor
  · intro h
    split at h
    · cases h
      exact ⟨b.take n, (List.take_append_drop n b).symm, by simp; omega⟩
    · cases h
  · rintro ⟨p, rfl, rfl⟩
    simp

theorem readBytes_iff (b x r : Bytes) : readBytes b = some (x, r) ↔ ∃ l, b = l ++ (x ++ r) ∧ IsVarint l x.length := by
  unfold readBytes
  constructor
  · intro h
    split at h
    · cases h
    · rename_i n r' hv
      split at h
      · rename_i hn
        cases h
        obtain ⟨l, rfl, hl⟩ := (readVarint_iff _ _ _).1 hv
        refine ⟨l, by rw [List.take_append_drop], ?_⟩
        rwa [List.length_take, Nat.min_eq_left hn]
      · cases h
  · rintro ⟨l, rfl, hl⟩
    rw [(readVarint_iff _ _ _).2 ⟨l, rfl, hl⟩]
    simp

theorem skipGroup_spec (fuel : Nat) (gs : List Nat) (b r : Bytes) (h : skipGroup fuel gs b = some r) : ∃ p, b = p ++ r ∧ Groups gs p := by
  induction fuel generalizing gs b with
  | zero => simp [skipGroup] at h
  | succ fuel ih =>
    cases gs with
    | nil =>
      simp only [skipGroup, Option.some.injEq] at h
      exact ⟨[], by rw [h]; rfl, .done⟩
    | cons g gs =>
      rw [skipGroup] at h
      cases ht : readTag b with
      | none => rw [ht] at h; cases h
      | some x =>
        obtain ⟨num, typ, r'⟩ := x
        rw [ht] at h
        dsimp only at h
        obtain ⟨t, rfl, ht'⟩ := (readTag_iff _ _ _ _).1 ht
        have plain : ∀ (v : Value) (q r'' : Bytes), r' = q ++ r'' → Plain typ q v → skipGroup fuel (g :: gs) r'' = some r →
            ∃ p, t ++ r' = p ++ r ∧ Groups (g :: gs) p := by
          rintro v q r'' rfl hq hr
          obtain ⟨p, rfl, hp⟩ := ih _ _ hr
          exact ⟨t ++ (q ++ p), by simp, .field ht' hq hp⟩
        split at h
        · rename_i h0; subst h0
          split at h
          · cases h
          · rename_i hv
            obtain ⟨q, e, hq⟩ := (readVarint_iff _ _ _).1 hv
            exact plain _ _ _ e (.number hq) h
        split at h
        · rename_i h0; subst h0
          split at h
          · cases h
          · rename_i hv
            obtain ⟨q, e, hq⟩ := (readFixed_iff _ _ _).1 hv
            exact plain _ _ _ e (.fixed64 hq) h
        split at h
        · rename_i h0; subst h0
          split at h
          · cases h
          · rename_i hv
            obtain ⟨l, e, hl⟩ := (readBytes_iff _ _ _).1 hv
            exact plain _ _ _ (by rw [e, List.append_assoc]) (.bytes hl) h
        split at h
        · rename_i h0; subst h0
          obtain ⟨p, rfl, hp⟩ := ih _ _ h
          exact ⟨t ++ p, by simp, .opens ht' hp⟩
        split at h
        · rename_i h0; subst h0
          split at h
          · rename_i hg
            subst hg
            obtain ⟨p, rfl, hp⟩ := ih _ _ h
            exact ⟨t ++ p, by simp, .closes ht' hp⟩
          · cases h
        split at h
        · rename_i h0; subst h0
          split at h
          · cases h
          · rename_i hv
            obtain ⟨q, e, hq⟩ := (readFixed_iff _ _ _).1 hv
            exact plain _ _ _ e (.fixed32 hq) h
        · cases h

theorem skipGroup_of {gs : List Nat} {p : Bytes} (h : Groups gs p) : ∀ (fuel : Nat) (r : Bytes), p.length < fuel → skipGroup fuel gs (p ++ r) = some r := by
  induction h with
  | done =>
    intro fuel r hf
    obtain ⟨fuel, rfl⟩ := Nat.exists_eq_succ_of_ne_zero (by omega : fuel ≠ 0)
    rfl
  | @field t b r' num typ g gs v ht hb hr ih =>
    intro fuel r hf
    obtain ⟨fuel, rfl⟩ := Nat.exists_eq_succ_of_ne_zero (by omega : fuel ≠ 0)
    have hl := isTag_ne ht
    simp only [List.length_append] at hf
    have ih := ih fuel r (by omega)
    rw [skipGroup, List.append_assoc, (readTag_iff _ _ _ _).2 ⟨t, rfl, ht⟩]
    dsimp only
    rw [List.append_assoc]
    cases hb with
    | number h => rw [if_pos rfl, (readVarint_iff _ _ _).2 ⟨b, rfl, h⟩]; exact ih
    | fixed64 h => rw [if_neg (by omega), if_pos rfl, (readFixed_iff _ _ _).2 ⟨b, rfl, h⟩]; exact ih
    | @bytes l b h =>
      rw [if_neg (by omega), if_neg (by omega), if_pos rfl, List.append_assoc, (readBytes_iff _ _ _).2 ⟨l, rfl, h⟩]; exact ih
    | fixed32 h =>
      rw [if_neg (by omega), if_neg (by omega), if_neg (by omega), if_neg (by omega), if_neg (by omega), if_pos rfl,
        (readFixed_iff _ _ _).2 ⟨b, rfl, h⟩]; exact ih
  | @opens t r' num g gs ht hr ih =>
    intro fuel r hf
    obtain ⟨fuel, rfl⟩ := Nat.exists_eq_succ_of_ne_zero (by omega : fuel ≠ 0)
    have hl := isTag_ne ht
    simp only [List.length_append] at hf
    rw [skipGroup, List.append_assoc, (readTag_iff _ _ _ _).2 ⟨t, rfl, ht⟩]
    dsimp only
    rw [if_neg (by omega), if_neg (by omega), if_neg (by omega), if_pos rfl]
    exact ih fuel r (by omega)
  | @closes t r' g gs ht hr ih =>
    intro fuel r hf
    obtain ⟨fuel, rfl⟩ := Nat.exists_eq_succ_of_ne_zero (by omega : fuel ≠ 0)
    have hl := isTag_ne ht
    simp only [List.length_append] at hf
    rw [skipGroup, List.append_assoc, (readTag_iff _ _ _ _).2 ⟨t, rfl, ht⟩]
    dsimp only
    rw [if_neg (by omega), if_neg (by omega), if_neg (by omega), if_neg (by omega), if_pos rfl, if_pos rfl]
    exact ih fuel r (by omega)

/-- one field of a message -/
inductive OneField : Bytes → Nat × Value → Prop
  | plain {t b : Bytes} {num typ : Nat} {v : Value} (ht : IsTag t num typ) (hn : num < 2 ^ 29) (hb : Plain typ b v) : OneField (t ++ b) (num, v)
  | group {t g : Bytes} {num : Nat} (ht : IsTag t num 3) (hn : num < 2 ^ 29) (hg : Groups [num] g) : OneField (t ++ g) (num, .other)

theorem readField_spec {b r : Bytes} {f : Nat × Value} (h : readField b = some (f, r)) : ∃ p, b = p ++ r ∧ OneField p f := by
  unfold readField at h
  cases ht : readTag b with
  | none => rw [ht] at h; cases h
  | some x =>
    obtain ⟨num, typ, r'⟩ := x
    rw [ht] at h
    dsimp only at h
    obtain ⟨t, rfl, ht'⟩ := (readTag_iff _ _ _ _).1 ht
    split at h
    · cases h
    rename_i hn
    have hn : num < 2 ^ 29 := by omega
    split at h
    · rename_i h0; subst h0
      cases hv : readVarint r' with
      | none => rw [hv] at h; cases h
      | some x =>
        obtain ⟨n, r''⟩ := x
        rw [hv] at h
        cases h
        obtain ⟨q, rfl, hq⟩ := (readVarint_iff _ _ _).1 hv
        exact ⟨t ++ q, by simp, .plain ht' hn (.number hq)⟩
    split at h
    · rename_i h0; subst h0
      cases hv : readFixed 8 r' with
      | none => rw [hv] at h; cases h
      | some x =>
        rw [hv] at h
        cases h
        obtain ⟨q, rfl, hq⟩ := (readFixed_iff _ _ _).1 hv
        exact ⟨t ++ q, by simp, .plain ht' hn (.fixed64 hq)⟩
    split at h
    · rename_i h0; subst h0
      cases hv : readBytes r' with
      | none => rw [hv] at h; cases h
      | some x =>
        obtain ⟨n, r''⟩ := x
        rw [hv] at h
        cases h
        obtain ⟨l, rfl, hl⟩ := (readBytes_iff _ _ _).1 hv
        exact ⟨t ++ (l ++ n), by simp, .plain ht' hn (.bytes hl)⟩
    split at h
    · rename_i h0; subst h0
      cases hv : skipGroup (r'.length + 1) [num] r' with
      | none => rw [hv] at h; cases h
      | some x =>
        rw [hv] at h
        cases h
        obtain ⟨q, rfl, hq⟩ := skipGroup_spec _ _ _ _ hv
        exact ⟨t ++ q, by simp, .group ht' hn hq⟩
    split at h
    · rename_i h0; subst h0
      cases hv : readFixed 4 r' with
      | none => rw [hv] at h; cases h
      | some x =>
        rw [hv] at h
        cases h
        obtain ⟨q, rfl, hq⟩ := (readFixed_iff _ _ _).1 hv
        exact ⟨t ++ q, by simp, .plain ht' hn (.fixed32 hq)⟩
    · cases h

theorem readField_of {p : Bytes} {f : Nat × Value} (h : OneField p f) (r : Bytes) : readField (p ++ r) = some (f, r) := by
  unfold readField
  cases h with
  | @plain t b num typ v ht hn hb =>
    rw [List.append_assoc, (readTag_iff _ _ _ _).2 ⟨t, rfl, ht⟩]
    dsimp only
    rw [if_neg (by omega)]
    cases hb with
    | number h => rw [if_pos rfl, (readVarint_iff _ _ _).2 ⟨b, rfl, h⟩]; rfl
    | fixed64 h => rw [if_neg (by omega), if_pos rfl, (readFixed_iff _ _ _).2 ⟨b, rfl, h⟩]; rfl
    | @bytes l b h =>
      rw [if_neg (by omega), if_neg (by omega), if_pos rfl, List.append_assoc, (readBytes_iff _ _ _).2 ⟨l, rfl, h⟩]; rfl
    | fixed32 h =>
      rw [if_neg (by omega), if_neg (by omega), if_neg (by omega), if_neg (by omega), if_pos rfl, (readFixed_iff _ _ _).2 ⟨b, rfl, h⟩]; rfl
  | @group t g num ht hn hg =>
    rw [List.append_assoc, (readTag_iff _ _ _ _).2 ⟨t, rfl, ht⟩]
    dsimp only
    rw [if_neg (by omega), if_neg (by omega), if_neg (by omega), if_neg (by omega), if_pos rfl, skipGroup_of hg _ _ (by simp; omega)]
    rfl

theorem oneField_ne {p : Bytes} {f : Nat × Value} (h : OneField p f) : 1 ≤ p.length := by
  cases h with
  | plain ht hn hb => have := isTag_ne ht; simp; omega
  | group ht hn hg => have := isTag_ne ht; simp; omega

theorem fields_cons {p r : Bytes} {f : Nat × Value} {fs : List (Nat × Value)} (h : OneField p f) (hr : Fields r fs) : Fields (p ++ r) (f :: fs) := by
  cases h with
  | plain ht hn hb => rw [List.append_assoc]; exact .plain ht hn hb hr
  | group ht hn hg => rw [List.append_assoc]; exact .group ht hn hg hr

theorem readFieldsAux_spec (fuel : Nat) (b : Bytes) (fs : List (Nat × Value)) (h : readFieldsAux fuel b = some fs) : Fields b fs := by
  induction fuel generalizing b fs with
  | zero =>
    cases b with
    | nil => simp only [readFieldsAux, Option.some.injEq] at h; subst h; exact .nil
    | cons x xs => simp [readFieldsAux] at h
  | succ fuel ih =>
    cases b with
    | nil => simp only [readFieldsAux, Option.some.injEq] at h; subst h; exact .nil
    | cons x xs =>
      rw [readFieldsAux] at h
      cases hf : readField (x :: xs) with
      | none => rw [hf] at h; cases h
      | some y =>
        obtain ⟨f, r⟩ := y
        rw [hf] at h
        dsimp only at h
        cases hr : readFieldsAux fuel r with
        | none => rw [hr] at h; cases h
        | some fs' =>
          rw [hr] at h
          cases h
          obtain ⟨p, e, hp⟩ := readField_spec hf
          rw [e]
          exact fields_cons hp (ih _ _ hr)

theorem readFieldsAux_of {b : Bytes} {fs : List (Nat × Value)} (h : Fields b fs) : ∀ fuel, b.length ≤ fuel → readFieldsAux fuel b = some fs := by
  have cons : ∀ {p r : Bytes} {f : Nat × Value} {fs : List (Nat × Value)}, OneField p f →
      (∀ fuel, r.length ≤ fuel → readFieldsAux fuel r = some fs) → ∀ fuel, (p ++ r).length ≤ fuel → readFieldsAux fuel (p ++ r) = some (f :: fs) := by
    intro p r f fs hp ih fuel hl
    have h1 := oneField_ne hp
    rw [List.length_append] at hl
    obtain ⟨fuel, rfl⟩ := Nat.exists_eq_succ_of_ne_zero (by omega : fuel ≠ 0)
    obtain ⟨x, xs, e⟩ := List.exists_cons_of_ne_nil (l := p ++ r) (by intro e; rw [List.append_eq_nil_iff] at e; simp [e.1] at h1)
    rw [e, readFieldsAux, ← e, readField_of hp r]
    dsimp only
    rw [ih fuel (by omega)]
    rfl
  induction h with
  | nil => intro fuel _; cases fuel <;> rfl
  | plain ht hn hb hr ih =>
    intro fuel hl
    rw [← List.append_assoc] at hl ⊢
    exact cons (.plain ht hn hb) ih fuel hl
  | group ht hn hg hr ih =>
    intro fuel hl
    rw [← List.append_assoc] at hl ⊢
    exact cons (.group ht hn hg) ih fuel hl

/-- **C130**: bytes are read as a list of fields exactly if they are a message with these fields. -/
theorem c130_fields (b : Bytes) (fs : List (Nat × Value)) : readFields b = some fs ↔ Fields b fs :=
  ⟨readFieldsAux_spec _ _ _, fun h => readFieldsAux_of h _ le_rfl⟩

/-! ## texts -/

theorem ofUtf8_utf8 (s : String) : ofUtf8 (utf8 s) = some s := by
  unfold ofUtf8 utf8 String.fromUTF8?
  simp only [Array.toArray_toList]
  rw [dif_pos s.isValidUTF8]
  rfl

theorem utf8_ofUtf8 {b : Bytes} {s : String} (h : ofUtf8 b = some s) : utf8 s = b := by
  unfold ofUtf8 String.fromUTF8? at h
  split at h
  · cases h
    rfl
  · cases h

theorem utf8_nil (s : String) : utf8 s = [] ↔ s = "" := by
  constructor
  · intro h
    have h1 := ofUtf8_utf8 s
    rw [h] at h1
    have h2 := ofUtf8_utf8 ""
    exact Option.some.inj (h1.symm.trans h2)
  · rintro rfl
    rfl

theorem mapM_ofUtf8 (l : List String) : (l.map utf8).mapM ofUtf8 = some l := by
  induction l with
  | nil => rfl
  | cons x l ih => rw [List.map_cons, List.mapM_cons, ofUtf8_utf8, ih]; rfl

/-! ## writing -/

theorem fields_append {a b : Bytes} {fs gs : List (Nat × Value)} (ha : Fields a fs) (hb : Fields b gs) : Fields (a ++ b) (fs ++ gs) := by
  induction ha with
  | nil => exact hb
  | plain ht hn hp _ ih => rw [List.append_assoc, List.append_assoc]; exact .plain ht hn hp ih
  | group ht hn hg _ ih => rw [List.append_assoc, List.append_assoc]; exact .group ht hn hg ih

theorem tag_is {num typ : Nat} (h1 : 1 ≤ num) (h2 : num < 2 ^ 29) (h3 : typ < 8) : IsTag (tag num typ) num typ :=
  ⟨varint_is _ (by omega), h3, h1, by omega⟩

theorem bytesField_fields {num : Nat} {b : Bytes} (h1 : 1 ≤ num) (h2 : num < 2 ^ 29) (hb : b.length < 2 ^ 64) :
    Fields (bytesField num b) [(num, .bytes b)] := by
  have := Fields.plain (tag_is h1 h2 (by omega : 2 < 8)) h2 (.bytes (varint_is _ hb)) .nil
  rwa [List.append_nil] at this

theorem blobField_fields {num : Nat} {b : Bytes} (h1 : 1 ≤ num) (h2 : num < 2 ^ 29) (hb : b.length < 2 ^ 64) :
    Fields (blobField num b) (if b = [] then [] else [(num, .bytes b)]) := by
  unfold blobField
  split
  · exact .nil
  · exact bytesField_fields h1 h2 hb

theorem enumField_fields {num n : Nat} (h1 : 1 ≤ num) (h2 : num < 2 ^ 29) (hb : n < 2 ^ 64) :
    Fields (enumField num n) (if n = 0 then [] else [(num, .number n)]) := by
  unfold enumField
  split
  · exact .nil
  · have := Fields.plain (tag_is h1 h2 (by omega : 0 < 8)) h2 (.number (varint_is _ hb)) .nil
    rwa [List.append_nil] at this

theorem repeated_fields {num : Nat} {l : List Bytes} (h1 : 1 ≤ num) (h2 : num < 2 ^ 29) (hb : ∀ b ∈ l, b.length < 2 ^ 64) :
    Fields (l.flatMap (bytesField num)) (l.map fun b => (num, .bytes b)) := by
  induction l with
  | nil => exact .nil
  | cons b l ih =>
    rw [List.flatMap_cons, List.map_cons]
    exact fields_append (bytesField_fields h1 h2 (hb b (by simp))) (ih fun x hx => hb x (by simp [hx]))

theorem bytesField_length (num : Nat) (b : Bytes) : b.length ≤ (bytesField num b).length := by
  unfold bytesField
  simp only [List.length_append]
  omega

theorem blobField_length (num : Nat) (b : Bytes) : b.length ≤ (blobField num b).length := by
  unfold blobField
  split
  · rename_i h; simp [h]
  · exact bytesField_length num b

theorem repeated_length (num : Nat) (l : List Bytes) (b : Bytes) (h : b ∈ l) : b.length ≤ (l.flatMap (bytesField num)).length := by
  induction l with
  | nil => cases h
  | cons x l ih =>
    rw [List.flatMap_cons, List.length_append]
    rcases List.mem_cons.1 h with rfl | h
    · have := bytesField_length num b; omega
    · have := ih h; omega

/-! ## what the fields say -/

theorem bytesOf_append (num : Nat) (fs gs : List (Nat × Value)) : bytesOf num (fs ++ gs) = bytesOf num fs ++ bytesOf num gs := List.filterMap_append

theorem numbersOf_append (num : Nat) (fs gs : List (Nat × Value)) : numbersOf num (fs ++ gs) = numbersOf num fs ++ numbersOf num gs :=
  List.filterMap_append

theorem bytesOf_blob (num n : Nat) (b : Bytes) : bytesOf num (if b = [] then [] else [(n, .bytes b)]) = if n = num ∧ b ≠ [] then [b] else [] := by
  by_cases hb : b = [] <;> by_cases hn : n = num <;> simp [hb, hn, bytesOf]

theorem bytesOf_enum (num n v : Nat) : bytesOf num (if v = 0 then [] else [(n, .number v)]) = [] := by
  by_cases hb : v = 0 <;> simp [hb, bytesOf]

theorem bytesOf_repeated (num n : Nat) (l : List Bytes) : bytesOf num (l.map fun b => (n, .bytes b)) = if n = num then l else [] := by
  by_cases hn : n = num
  · subst hn
    rw [if_pos rfl]
    induction l with
    | nil => rfl
    | cons b l ih =>
      unfold bytesOf at ih ⊢
      rw [List.map_cons, List.filterMap_cons]
      simp only [if_pos]
      rw [ih]
  · rw [if_neg hn]
    induction l with
    | nil => rfl
    | cons b l ih =>
      unfold bytesOf at ih ⊢
      rw [List.map_cons, List.filterMap_cons]
      simp only [if_neg hn]
      exact ih

theorem numbersOf_blob (num n : Nat) (b : Bytes) : numbersOf num (if b = [] then [] else [(n, .bytes b)]) = [] := by
  by_cases hb : b = [] <;> simp [hb, numbersOf]

theorem numbersOf_enum (num n v : Nat) : numbersOf num (if v = 0 then [] else [(n, .number v)]) = if n = num ∧ v ≠ 0 then [v] else [] := by
  by_cases hb : v = 0 <;> by_cases hn : n = num <;> simp [hb, hn, numbersOf]

theorem numbersOf_repeated (num n : Nat) (l : List Bytes) : numbersOf num (l.map fun b => (n, .bytes b)) = [] := by
  induction l with
  | nil => rfl
  | cons b l ih =>
    unfold numbersOf at ih ⊢
    rw [List.map_cons, List.filterMap_cons]
    exact ih

theorem last_blob (b : Bytes) : (if b ≠ [] then [b] else []).getLast?.getD [] = b := by
  by_cases h : b = [] <;> simp [h]

theorem string_blob (s : String) : ((if utf8 s ≠ [] then [utf8 s] else []).mapM ofUtf8).map (fun l => l.getLast?.getD "") = some s := by
  by_cases h : utf8 s = []
  · have := (utf8_nil s).1 h
    subst this
    rfl
  · rw [if_pos h, List.mapM_cons, ofUtf8_utf8]
    rfl

theorem limit_some {b c : Bytes} : limit b = some c ↔ b = c ∧ b.length < 2 ^ 32 := by
  unfold limit
  split
  · rename_i h; rw [Option.some.injEq]; exact ⟨fun e => ⟨e, h⟩, fun e => e.1⟩
  · rename_i h; exact ⟨(fun e => by cases e), fun e => absurd e.2 h⟩

/-! ## what is read -/

theorem bytesOf_eq (num : Nat) (fs : List (Nat × Value)) : bytesOf num fs = payloads num fs := by
  induction fs with
  | nil => rfl
  | cons f fs ih =>
    obtain ⟨n, v⟩ := f
    unfold bytesOf payloads at ih ⊢
    rw [List.filterMap_cons, List.filter_cons]
    by_cases hn : n = num
    · cases v <;> simp [hn, ih]
    · cases v <;> simp [hn, ih]

theorem numbersOf_eq (num : Nat) (fs : List (Nat × Value)) : numbersOf num fs = numbers num fs := by
  induction fs with
  | nil => rfl
  | cons f fs ih =>
    obtain ⟨n, v⟩ := f
    unfold numbersOf numbers at ih ⊢
    rw [List.filterMap_cons, List.filter_cons]
    by_cases hn : n = num
    · cases v <;> simp [hn, ih]
    · cases v <;> simp [hn, ih]

theorem mapM_iff (bs : List Bytes) (l : List String) : bs.mapM ofUtf8 = some l ↔ bs = l.map utf8 := by
  constructor
  · intro h
    induction bs generalizing l with
    | nil => simp at h; subst h; rfl
    | cons b bs ih =>
      rw [List.mapM_cons] at h
      simp only [Option.bind_eq_bind, Option.bind_eq_some_iff] at h
      obtain ⟨s, h1, l', h2, h3⟩ := h
      cases h3
      rw [List.map_cons, utf8_ofUtf8 h1, ← ih _ h2]
  · rintro rfl
    exact mapM_ofUtf8 l

theorem stringsOf_iff (num : Nat) (fs : List (Nat × Value)) (l : List String) : stringsOf num fs = some l ↔ Texts num fs l := by
  unfold stringsOf Texts
  rw [mapM_iff, bytesOf_eq]
  rfl

theorem stringOf_iff (num : Nat) (fs : List (Nat × Value)) (s : String) : stringOf num fs = some s ↔ Text num fs s := by
  unfold stringOf Text
  rw [Option.map_eq_some_iff]
  simp only [stringsOf_iff]

theorem enumOf_iff (num : Nat) (fs : List (Nat × Value)) (n : Nat) : enumOf num fs = n ↔ Enum num fs n := by
  unfold enumOf Enum
  rw [numbersOf_eq]

theorem blobOf_iff (num : Nat) (fs : List (Nat × Value)) (b : Bytes) : blobOf num fs = b ↔ Blob num fs b := by
  unfold blobOf Blob
  rw [bytesOf_eq]

theorem typeOf_eq (n : Nat) : typeOf n = typeNames[n]?.getD .unknown := by
  rcases n with _ | _ | _ | _ | _ | n <;> rfl

/-- **C130**: which bytes are read as a request to join, and as which. -/
theorem c130_read_request (b : Bytes) (id : String) : wire.decReq b = some id ↔ IsReq b id := by
  show decReq b = _ ↔ _
  unfold decReq IsReq
  rw [Option.bind_eq_some_iff]
  simp only [c130_fields, stringOf_iff]

/-- **C130**: which bytes are read as a message of the leader protocol, and as which. -/
theorem c130_read_comm (b : Bytes) (m : Comm) : wire.decComm b = some m ↔ IsComm b m := by
  show decComm b = _ ↔ _
  unfold decComm IsComm
  rw [Option.bind_eq_some_iff]
  constructor
  · rintro ⟨fs, h1, h2⟩
    split at h2
    · rename_i id mt ps e1 e2 e3
      cases h2
      exact ⟨fs, _, (c130_fields _ _).1 h1, (stringOf_iff _ _ _).1 e1, (stringOf_iff _ _ _).1 e2, (enumOf_iff _ _ _).1 rfl, (typeOf_eq _).symm,
        (stringsOf_iff _ _ _).1 e3⟩
    · cases h2
  · rintro ⟨fs, n, h1, h2, h3, h4, h5, h6⟩
    refine ⟨fs, (c130_fields _ _).2 h1, ?_⟩
    rw [(stringOf_iff _ _ _).2 h2, (stringOf_iff _ _ _).2 h3, (stringsOf_iff _ _ _).2 h6, (enumOf_iff _ _ _).2 h4, typeOf_eq, h5]

/-- **C130**: which bytes are read as a notice, and as which. -/
theorem c130_read_notice (b : Bytes) (m : SigNotifier.KeysignSignature) : decNotice b = some m ↔ IsNotice b m := by
  unfold decNotice IsNotice
  rw [Option.bind_eq_some_iff]
  constructor
  · rintro ⟨fs, h1, h2⟩
    rw [Option.map_eq_some_iff] at h2
    obtain ⟨id, h2, rfl⟩ := h2
    exact ⟨fs, _, (c130_fields _ _).1 h1, (stringOf_iff _ _ _).1 h2, (bytesOf_eq _ _).symm, (enumOf_iff _ _ _).1 rfl, by simp⟩
  · rintro ⟨fs, n, h1, h2, h3, h4, h5⟩
    refine ⟨fs, (c130_fields _ _).2 h1, ?_⟩
    rw [(stringOf_iff _ _ _).2 h2, (enumOf_iff _ _ _).2 h4, bytesOf_eq, h3]
    have : decide (n = 1) = m.success := by
      rw [Bool.eq_iff_iff, decide_eq_true_iff]
      exact h5.symm
    rw [this]
    rfl

/-- **C130**: which bytes are read as a signature, and as which. -/
theorem c130_read_signature (b : Bytes) (x : Session.Sig) : decSig b = some x ↔ IsSig b x := by
  unfold decSig IsSig
  rw [Option.map_eq_some_iff]
  constructor
  · rintro ⟨fs, h1, rfl⟩
    exact ⟨fs, _, (c130_fields _ _).1 h1, (blobOf_iff _ _ _).1 rfl, rfl, (blobOf_iff _ _ _).1 rfl, (blobOf_iff _ _ _).1 rfl, (blobOf_iff _ _ _).1 rfl,
      (blobOf_iff _ _ _).1 rfl⟩
  · rintro ⟨fs, sig, h1, h2, h3, h4, h5, h6, h7⟩
    refine ⟨fs, (c130_fields _ _).2 h1, ?_⟩
    rw [← blobOf_iff] at h2 h4 h5 h6 h7
    obtain ⟨a1, a2, a3, a4, a5⟩ := x
    dsimp only at h3 h4 h5 h6 h7
    rw [h2, h3, h4, h5, h6, h7]

/-! ## what is written is read -/

theorem text_blob {num : Nat} {fs : List (Nat × Value)} {s : String} (h : bytesOf num fs = if utf8 s ≠ [] then [utf8 s] else []) : stringOf num fs = some s := by
  unfold stringOf stringsOf
  rw [h]
  exact string_blob s

theorem comm_fields (m : Comm) (h : (encComm m).length < 2 ^ 64) :
    Fields (encComm m) ((if utf8 m.id = [] then [] else [(1, .bytes (utf8 m.id))]) ++ ((if utf8 m.msgType = [] then [] else [(2, .bytes (utf8 m.msgType))]) ++
      ((if typeNumber m.typ = 0 then [] else [(3, .number (typeNumber m.typ))]) ++ (m.peerIDs.map utf8).map fun b => (4, .bytes b)))) := by
  have e : (m.peerIDs.flatMap fun p => bytesField 4 (utf8 p)) = (m.peerIDs.map utf8).flatMap (bytesField 4) := by rw [List.flatMap_map]
  unfold encComm at h ⊢
  rw [e] at h ⊢
  simp only [List.length_append] at h
  have h1 := blobField_length 1 (utf8 m.id)
  have h2 := blobField_length 2 (utf8 m.msgType)
  refine fields_append (blobField_fields (by omega) (by omega) (by omega)) (fields_append (blobField_fields (by omega) (by omega) (by omega))
    (fields_append (enumField_fields (by omega) (by omega) ?_) (repeated_fields (by omega) (by omega) ?_)))
  · cases m.typ <;> decide
  · intro b hb
    have := repeated_length 4 _ b hb
    omega

theorem decComm_encComm (m : Comm) (h : (encComm m).length < 2 ^ 64) : decComm (encComm m) = some m ∧ decReq (encComm m) = some m.id := by
  have hf := (c130_fields _ _).2 (comm_fields m h)
  have hid : ∀ fs, bytesOf 1 fs = (if utf8 m.id ≠ [] then [utf8 m.id] else []) → stringOf 1 fs = some m.id := fun fs h => text_blob h
  unfold decComm decReq
  rw [hf]
  simp only [Option.bind_some]
  generalize hfs : ((if utf8 m.id = [] then [] else [(1, Value.bytes (utf8 m.id))]) ++ ((if utf8 m.msgType = [] then [] else [(2, Value.bytes (utf8 m.msgType))]) ++
      ((if typeNumber m.typ = 0 then [] else [(3, Value.number (typeNumber m.typ))]) ++ (m.peerIDs.map utf8).map fun b => (4, Value.bytes b)))) = fs
  have hb : ∀ num, bytesOf num fs = (if 1 = num ∧ utf8 m.id ≠ [] then [utf8 m.id] else []) ++ ((if 2 = num ∧ utf8 m.msgType ≠ [] then [utf8 m.msgType] else []) ++
      (if 4 = num then m.peerIDs.map utf8 else [])) := by
    intro num
    rw [← hfs]
    simp only [bytesOf_append, bytesOf_blob, bytesOf_enum, bytesOf_repeated, List.nil_append]
  have hn : numbersOf 3 fs = if typeNumber m.typ ≠ 0 then [typeNumber m.typ] else [] := by
    rw [← hfs]
    simp only [numbersOf_append, numbersOf_blob, numbersOf_enum, numbersOf_repeated, List.nil_append, List.append_nil, true_and]
  have h1 : stringOf 1 fs = some m.id := text_blob (by rw [hb]; simp)
  have h2 : stringOf 2 fs = some m.msgType := text_blob (by rw [hb]; simp)
  have h4 : stringsOf 4 fs = some m.peerIDs := by
    unfold stringsOf
    rw [hb]
    simp only [show ¬(1 = 4) by omega, show ¬(2 = 4) by omega, false_and, if_false, if_true, List.nil_append]
    exact mapM_ofUtf8 _
  have h3 : typeOf (enumOf 3 fs) = m.typ := by
    unfold enumOf
    rw [hn]
    cases m.typ <;> rfl
  rw [h1, h2, h4, h3]
  exact ⟨rfl, rfl⟩

theorem decReq_encReq (id : String) (h : (encReq id).length < 2 ^ 64) :
    decReq (encReq id) = some id ∧ decComm (encReq id) = some ⟨id, "", .unknown, []⟩ := by
  have e : encReq id = encComm ⟨id, "", .unknown, []⟩ := by
    unfold encReq encComm
    simp [blobField, enumField, utf8, typeNumber]
  rw [e] at h ⊢
  exact ⟨(decComm_encComm _ h).2, (decComm_encComm _ h).1⟩

/-- **C130**: what a node writes as a message of the leader protocol, every node reads as the same message; read as a request, it is one with the same
id. -/
theorem c130_comm (m : Comm) (b : Bytes) (h : wire.encComm m = some b) : wire.decComm b = some m ∧ wire.decReq b = some m.id := by
  obtain ⟨rfl, h⟩ := limit_some.1 h
  exact decComm_encComm m (by omega)

/-- **C130**: what a node writes as a request, every node reads as the same request; read as a message of the leader protocol, it is one with the same id
and nothing else. -/
theorem c130_request (id : String) (b : Bytes) (h : wire.encReq id = some b) :
    wire.decReq b = some id ∧ wire.decComm b = some ⟨id, "", .unknown, []⟩ := by
  obtain ⟨rfl, h⟩ := limit_some.1 h
  exact decReq_encReq id (by omega)

/-- **C130**: all bytes that are read as a message of the leader protocol are also read as a request, with the same id. -/
theorem c130_both (b : Bytes) (m : Comm) (h : wire.decComm b = some m) : wire.decReq b = some m.id := by
  obtain ⟨fs, n, h1, h2, -⟩ := (c130_read_comm b m).1 h
  exact (c130_read_request b m.id).2 ⟨fs, h1, h2⟩

/-- **C130**: the theorems on join parties (C97-C101) apply to the real encoding. -/
theorem c130_lawful : Parties.LawfulWire wire where
  comm m b h := ⟨(c130_comm m b h).1, by rw [(c130_comm m b h).2]; rfl, by obtain ⟨rfl, h'⟩ := limit_some.1 h; exact h'⟩
  req id b h := ⟨(c130_request id b h).1, by obtain ⟨rfl, h'⟩ := limit_some.1 h; exact h'⟩

theorem notice_fields (m : SigNotifier.KeysignSignature) (h : (encNotice m).length < 2 ^ 64) :
    Fields (encNotice m) ((if utf8 m.id = [] then [] else [(1, .bytes (utf8 m.id))]) ++ (m.signatures.map (fun b => (2, .bytes b)) ++
      (if (if m.success then 1 else 2) = 0 then [] else [(3, .number (if m.success then 1 else 2))]))) := by
  unfold encNotice at h ⊢
  simp only [List.length_append] at h
  have h1 := blobField_length 1 (utf8 m.id)
  refine fields_append (blobField_fields (by omega) (by omega) (by omega)) (fields_append (repeated_fields (by omega) (by omega) ?_)
    (enumField_fields (by omega) (by omega) ?_))
  · intro b hb
    have := repeated_length 2 _ b hb
    omega
  · split <;> omega

theorem decNotice_encNotice (m : SigNotifier.KeysignSignature) (h : (encNotice m).length < 2 ^ 64) : decNotice (encNotice m) = some m := by
  have hf := (c130_fields _ _).2 (notice_fields m h)
  unfold decNotice
  rw [hf]
  simp only [Option.bind_some]
  have h1 : ∀ v : Nat, stringOf 1 ((if utf8 m.id = [] then [] else [(1, Value.bytes (utf8 m.id))]) ++ (m.signatures.map (fun b => (2, Value.bytes b)) ++
      (if v = 0 then [] else [(3, Value.number v)]))) = some m.id := fun v => text_blob (by
    simp only [bytesOf_append, bytesOf_blob, bytesOf_enum, bytesOf_repeated, List.append_nil, true_and]
    simp)
  have h2 : ∀ v : Nat, bytesOf 2 ((if utf8 m.id = [] then [] else [(1, Value.bytes (utf8 m.id))]) ++ (m.signatures.map (fun b => (2, Value.bytes b)) ++
      (if v = 0 then [] else [(3, Value.number v)]))) = m.signatures := fun v => by
    simp only [bytesOf_append, bytesOf_blob, bytesOf_enum, bytesOf_repeated, List.append_nil]
    simp
  have h3 : ∀ v : Nat, numbersOf 3 ((if utf8 m.id = [] then [] else [(1, Value.bytes (utf8 m.id))]) ++ (m.signatures.map (fun b => (2, Value.bytes b)) ++
      (if v = 0 then [] else [(3, Value.number v)]))) = if v ≠ 0 then [v] else [] := fun v => by
    simp only [numbersOf_append, numbersOf_blob, numbersOf_enum, numbersOf_repeated, List.nil_append, true_and]
  rw [h1, h2]
  unfold enumOf
  rw [h3]
  obtain ⟨id, sigs, _ | _⟩ := m <;> rfl

theorem sig_fields (x : Session.Sig) (h : (encSig x).length < 2 ^ 64) :
    Fields (encSig x) ((if x.signature.getD [] = [] then [] else [(1, .bytes (x.signature.getD []))]) ++ ((if x.recovery = [] then [] else [(2, .bytes x.recovery)]) ++
      ((if x.r = [] then [] else [(3, .bytes x.r)]) ++ ((if x.s = [] then [] else [(4, .bytes x.s)]) ++ (if x.m = [] then [] else [(5, .bytes x.m)]))))) := by
  unfold encSig at h ⊢
  simp only [List.length_append] at h
  have h1 := blobField_length 1 (x.signature.getD [])
  have h2 := blobField_length 2 x.recovery
  have h3 := blobField_length 3 x.r
  have h4 := blobField_length 4 x.s
  have h5 := blobField_length 5 x.m
  exact fields_append (blobField_fields (by omega) (by omega) (by omega)) (fields_append (blobField_fields (by omega) (by omega) (by omega))
    (fields_append (blobField_fields (by omega) (by omega) (by omega)) (fields_append (blobField_fields (by omega) (by omega) (by omega))
      (blobField_fields (by omega) (by omega) (by omega)))))

theorem decSig_encSig (x : Session.Sig) (h : (encSig x).length < 2 ^ 64) :
    decSig (encSig x) = some { x with signature := if x.signature = some [] then none else x.signature } := by
  have hf := (c130_fields _ _).2 (sig_fields x h)
  unfold decSig
  rw [hf]
  simp only [Option.map_some]
  obtain ⟨sg, rc, r, s, m⟩ := x
  dsimp only
  have hb : ∀ a b c d e : Bytes, ∀ num, bytesOf num ((if a = [] then [] else [(1, Value.bytes a)]) ++ ((if b = [] then [] else [(2, Value.bytes b)]) ++
      ((if c = [] then [] else [(3, Value.bytes c)]) ++ ((if d = [] then [] else [(4, Value.bytes d)]) ++ (if e = [] then [] else [(5, Value.bytes e)]))))) =
      (if 1 = num ∧ a ≠ [] then [a] else []) ++ ((if 2 = num ∧ b ≠ [] then [b] else []) ++ ((if 3 = num ∧ c ≠ [] then [c] else []) ++
        ((if 4 = num ∧ d ≠ [] then [d] else []) ++ (if 5 = num ∧ e ≠ [] then [e] else [])))) := by
    intro a b c d e num
    simp only [bytesOf_append, bytesOf_blob]
  have e1 : ∀ a b c d e : Bytes, blobOf 1 ((if a = [] then [] else [(1, Value.bytes a)]) ++ ((if b = [] then [] else [(2, Value.bytes b)]) ++
      ((if c = [] then [] else [(3, Value.bytes c)]) ++ ((if d = [] then [] else [(4, Value.bytes d)]) ++ (if e = [] then [] else [(5, Value.bytes e)]))))) = a := by
    intro a b c d e; unfold blobOf; rw [hb]; simpa using last_blob a
  have e2 : ∀ a b c d e : Bytes, blobOf 2 ((if a = [] then [] else [(1, Value.bytes a)]) ++ ((if b = [] then [] else [(2, Value.bytes b)]) ++
      ((if c = [] then [] else [(3, Value.bytes c)]) ++ ((if d = [] then [] else [(4, Value.bytes d)]) ++ (if e = [] then [] else [(5, Value.bytes e)]))))) = b := by
    intro a b c d e; unfold blobOf; rw [hb]; simpa using last_blob b
  have e3 : ∀ a b c d e : Bytes, blobOf 3 ((if a = [] then [] else [(1, Value.bytes a)]) ++ ((if b = [] then [] else [(2, Value.bytes b)]) ++
      ((if c = [] then [] else [(3, Value.bytes c)]) ++ ((if d = [] then [] else [(4, Value.bytes d)]) ++ (if e = [] then [] else [(5, Value.bytes e)]))))) = c := by
    intro a b c d e; unfold blobOf; rw [hb]; simpa using last_blob c
  have e4 : ∀ a b c d e : Bytes, blobOf 4 ((if a = [] then [] else [(1, Value.bytes a)]) ++ ((if b = [] then [] else [(2, Value.bytes b)]) ++
      ((if c = [] then [] else [(3, Value.bytes c)]) ++ ((if d = [] then [] else [(4, Value.bytes d)]) ++ (if e = [] then [] else [(5, Value.bytes e)]))))) = d := by
    intro a b c d e; unfold blobOf; rw [hb]; simpa using last_blob d
  have e5 : ∀ a b c d e : Bytes, blobOf 5 ((if a = [] then [] else [(1, Value.bytes a)]) ++ ((if b = [] then [] else [(2, Value.bytes b)]) ++
      ((if c = [] then [] else [(3, Value.bytes c)]) ++ ((if d = [] then [] else [(4, Value.bytes d)]) ++ (if e = [] then [] else [(5, Value.bytes e)]))))) = e := by
    intro a b c d e; unfold blobOf; rw [hb]; simpa using last_blob e
  rw [e1, e2, e3, e4, e5]
  rcases sg with _ | sg
  · simp
  · by_cases h : sg = [] <;> simp [h]

/-- the encoding of notices, with the limit on sizes -/
def enc : SigNotifier.Enc where
  encMsg m := limit (encNotice m)
  encSig x := limit (encSig x)

/-- **C130**: what a node writes as a notice, every node reads as the same notice. -/
theorem c130_notice (m : SigNotifier.KeysignSignature) (b : Bytes) (h : enc.encMsg m = some b) : decNotice b = some m := by
  obtain ⟨rfl, h⟩ := limit_some.1 h
  exact decNotice_encNotice m (by omega)

/-- **C130**: what a node writes as a signature, every node reads as the same signature, except that a signature which is present but empty is read as one
that is not present. -/
theorem c130_signature (x : Session.Sig) (b : Bytes) (h : enc.encSig x = some b) :
    decSig b = some { x with signature := if x.signature = some [] then none else x.signature } := by
  obtain ⟨rfl, h⟩ := limit_some.1 h
  exact decSig_encSig x (by omega)

/-- **C130**: the theorems on notices (C96) apply to the real encoding, whatever the verification of signatures is. -/
theorem c130_roundtrip (verify : String → Bytes → Nat → Nat → Option Bool) : Announced.RoundTrip enc ⟨verify, decNotice, decSig⟩ where
  msg m b h := c130_notice m b h
  sig x b hx h := by
    have := c130_signature x b h
    rw [if_neg hx] at this
    exact this

/-- the number of bytes of a signature -/
def size (x : Session.Sig) : Nat := (x.signature.getD []).length + x.recovery.length + x.r.length + x.s.length + x.m.length

theorem varintAux_length (k n : Nat) : (varintAux k n).length ≤ k := by
  induction k generalizing n with
  | zero => simp [varintAux]
  | succ k ih =>
    rw [varintAux]
    split
    · simp
    · have := ih (n / 128)
      simp only [List.length_cons]
      omega

theorem blobField_le (num : Nat) (b : Bytes) : (blobField num b).length ≤ b.length + 20 ∧ (bytesField num b).length ≤ b.length + 20 := by
  have h : (bytesField num b).length ≤ b.length + 20 := by
    unfold bytesField tag varint
    simp only [List.length_append]
    have h1 := varintAux_length 10 (num * 8 + 2)
    have h2 := varintAux_length 10 b.length
    omega
  refine ⟨?_, h⟩
  unfold blobField
  split
  · simp
  · exact h

theorem encSig_le (x : Session.Sig) : (encSig x).length ≤ size x + 100 := by
  unfold encSig size
  simp only [List.length_append]
  have h1 := (blobField_le 1 (x.signature.getD [])).1
  have h2 := (blobField_le 2 x.recovery).1
  have h3 := (blobField_le 3 x.r).1
  have h4 := (blobField_le 4 x.s).1
  have h5 := (blobField_le 5 x.m).1
  omega

/-- **C130**: an announcement of signatures that are not too long can be encoded (the bound is 4 GiB, with 120 bytes for each signature and 40 more). -/
theorem c130_short (id : String) (l : List Session.Sig) (h : id.utf8ByteSize + (l.map fun x => size x + 120).sum + 40 < 2 ^ 32)
    (hs : ∀ x ∈ l, x.signature ≠ some []) : Announced.Fits enc id l := by
  have hid : (utf8 id).length = id.utf8ByteSize := by
    unfold utf8
    rw [Array.length_toList]
    rfl
  have hm : l.mapM enc.encSig = some (l.map encSig) ∧ ((l.map encSig).flatMap (bytesField 2)).length ≤ (l.map fun x => size x + 120).sum := by
    have hh : (l.map fun x => size x + 120).sum < 2 ^ 32 := by omega
    clear h hs
    induction l with
    | nil => exact ⟨rfl, by simp⟩
    | cons x l ih =>
      rw [List.map_cons, List.sum_cons] at hh
      obtain ⟨h1, h2⟩ := ih (by omega)
      have h3 := encSig_le x
      have h4 := (blobField_le 2 (encSig x)).2
      constructor
      · rw [List.mapM_cons, h1]
        show (limit (encSig x)).bind _ = _
        rw [limit_some.2 ⟨rfl, by omega⟩]
        rfl
      · rw [List.map_cons, List.map_cons, List.flatMap_cons, List.length_append, List.sum_cons]
        omega
  have h5 := (blobField_le 1 (utf8 id)).1
  have h6 : ∀ n, (enumField 3 n).length ≤ 20 := by
    intro n
    unfold enumField tag varint
    split
    · simp
    · have h1 := varintAux_length 10 (3 * 8 + 0)
      have h2 := varintAux_length 10 n
      simp only [List.length_append]
      omega
  refine ⟨?_, hs⟩
  unfold SigNotifier.noticeBytes
  split
  · rename_i hl
    subst hl
    show (limit (encNotice _)).isSome
    rw [limit_some.2 ⟨rfl, ?_⟩]
    · rfl
    · unfold encNotice
      have h7 := h6 2
      simp only [List.length_append, List.flatMap_nil, List.length_nil, Bool.false_eq_true, if_false]
      simp at h
      omega
  · rw [hm.1]
    show (limit (encNotice _)).isSome
    rw [limit_some.2 ⟨rfl, ?_⟩]
    · rfl
    · unfold encNotice
      have h7 := h6 1
      have h8 := hm.2
      simp only [List.length_append, if_true]
      omega

/-! ## fields that do not matter -/

theorem payloads_alike {nums : List Nat} {fs gs : List (Nat × Value)} (h : Alike nums fs gs) {num : Nat} (hn : num ∈ nums) :
    payloads num fs = payloads num gs ∧ numbers num fs = numbers num gs := by
  unfold payloads numbers
  rw [h num hn]
  exact ⟨rfl, rfl⟩

/-- **C130**: fields with other numbers, and the order of fields with different numbers, make no difference. -/
theorem c130_extended (b b' : Bytes) (fs fs' : List (Nat × Value)) (h : Fields b fs) (h' : Fields b' fs') :
    (Alike [1] fs fs' → wire.decReq b = wire.decReq b') ∧ (Alike [1, 2, 3, 4] fs fs' → wire.decComm b = wire.decComm b') ∧
    (Alike [1, 2, 3] fs fs' → decNotice b = decNotice b') ∧ (Alike [1, 2, 3, 4, 5] fs fs' → decSig b = decSig b') := by
  rw [← c130_fields] at h h'
  have hs : ∀ {nums num}, Alike nums fs fs' → num ∈ nums → stringsOf num fs = stringsOf num fs' ∧ stringOf num fs = stringOf num fs' ∧
      bytesOf num fs = bytesOf num fs' ∧ enumOf num fs = enumOf num fs' ∧ blobOf num fs = blobOf num fs' := by
    intro nums num ha hn
    have hp := payloads_alike ha hn
    simp only [stringOf, stringsOf, enumOf, blobOf, bytesOf_eq, numbersOf_eq, hp.1, hp.2, and_self]
  refine ⟨fun ha => ?_, fun ha => ?_, fun ha => ?_, fun ha => ?_⟩
  · show decReq b = decReq b'
    unfold decReq
    rw [h, h', Option.bind_some, Option.bind_some]
    exact (hs ha (by simp)).2.1
  · show decComm b = decComm b'
    unfold decComm
    rw [h, h', Option.bind_some, Option.bind_some, (hs ha (num := 1) (by simp)).2.1, (hs ha (num := 2) (by simp)).2.1, (hs ha (num := 4) (by simp)).1,
      (hs ha (num := 3) (by simp)).2.2.2.1]
  · unfold decNotice
    rw [h, h', Option.bind_some, Option.bind_some, (hs ha (num := 1) (by simp)).2.1, (hs ha (num := 2) (by simp)).2.2.1,
      (hs ha (num := 3) (by simp)).2.2.2.1]
  · unfold decSig
    rw [h, h', Option.map_some, Option.map_some, (hs ha (num := 1) (by simp)).2.2.2.2, (hs ha (num := 2) (by simp)).2.2.2.2,
      (hs ha (num := 3) (by simp)).2.2.2.2, (hs ha (num := 4) (by simp)).2.2.2.2, (hs ha (num := 5) (by simp)).2.2.2.2]

/-! ## Examples -/
section demo

/-- what the leader sends to the members of a party -/
def sent : Comm := ⟨"m", "response", .success, ["p", "ü"]⟩

/-- C130: the bytes of messages -/
example : wire.encComm sent = some [10, 1, 109, 18, 8, 114, 101, 115, 112, 111, 110, 115, 101, 24, 1, 34, 1, 112, 34, 2, 195, 188] ∧
    wire.encReq "m" = some [10, 1, 109] ∧ wire.encReq "" = some [] ∧ enc.encMsg ⟨"m", [[1]], true⟩ = some [10, 1, 109, 18, 1, 1, 24, 1] ∧
    enc.encMsg ⟨"m", [], false⟩ = some [10, 1, 109, 24, 2] ∧ enc.encSig ⟨some [7], [], [1], [2], [3]⟩ = some [10, 1, 7, 26, 1, 1, 34, 1, 2, 42, 1, 3] := by
  decide +kernel

/-- C130: the bytes of a message are not unique: the last text counts, fields may come in any order, a number may be longer than needed, and unknown
fields (here a number, a group and four bytes) are skipped; a text which is not UTF-8, or a length beyond the end, is refused -/
example : wire.decReq [10, 1, 120, 10, 129, 0, 109] = some "m" ∧ wire.decReq [32, 5, 10, 1, 109, 43, 8, 1, 44, 53, 1, 2, 3, 4] = some "m" ∧
    wire.decReq [10, 1, 255] = none ∧ wire.decReq [10, 2, 109] = none ∧ wire.decReq [34, 1, 255] = some "" ∧ wire.decComm [34, 1, 255] = none := by decide +kernel

/-- C130: two lists of fields of the same message -/
example : Alike [1] [(1, .bytes [109])] [(4, .number 5), (1, .bytes [109]), (6, .other)] ∧
    Fields [10, 1, 109] [(1, .bytes [109])] ∧ Fields [32, 5, 10, 1, 109, 53, 1, 2, 3, 4] [(4, .number 5), (1, .bytes [109]), (6, .other)] :=
  ⟨by unfold Alike; decide, (c130_fields _ _).1 (by decide +kernel), (c130_fields _ _).1 (by decide +kernel)⟩

/-- C130: an announcement that is short enough -/
example : Announced.Fits enc "m" [⟨some [7], [], [1], [2], [3]⟩] := c130_short _ _ (by decide +kernel) (by decide)

end demo

end Verif.Props.Protobuf
