import Verif.Model.Base64
import Verif.Spec.Base64
import Verif.Props.C09_C10
import Mathlib.Tactic.Ring
import Mathlib.Tactic.Linarith

/-!
# C131: the texts of messages

Which texts stand for a message to sign, and which text an answer gives for it.
-/
set_option linter.unusedSectionVars false
namespace Verif.Props.MessageTexts
open Verif.MsgId (Str)
open Verif.Base64 Verif.Spec.Base64

/-! ## letters -/

theorem letters_eq : letters = alphabet := by decide +kernel

theorem letter_eq (n : Nat) : letter n = letters.getD n 'A' := by rw [letters_eq]; rfl

theorem index_letter {n : Nat} (h : n < 64) : index (letter n) = some n := by
  have : ∀ k : Fin 64, index (letter k) = some k.val := by decide +kernel
  exact this ⟨n, h⟩

theorem letter_plain {n : Nat} (h : n < 64) : letter n ≠ '=' ∧ letter n ≠ '\n' ∧ letter n ≠ '\r' := by
  have : ∀ k : Fin 64, letter k ≠ '=' ∧ letter k ≠ '\n' ∧ letter k ≠ '\r' := by decide +kernel
  exact this ⟨n, h⟩

theorem of_index {c : Char} {n : Nat} (h : index c = some n) : n < 64 ∧ c = letter n := by
  unfold index at h
  rw [List.idxOf?_eq_some_iff] at h
  obtain ⟨hn, hc, -⟩ := h
  have hl : alphabet.length = 64 := by decide +kernel
  refine ⟨by omega, ?_⟩
  unfold letter
  rw [List.getD_eq_getElem?_getD, List.getElem?_eq_getElem hn]
  simpa using hc.symm

/-! ## numbers -/

theorem number_nil (B : Nat) : number B [] = 0 := rfl

theorem number_snoc (B : Nat) (ds : List Nat) (d : Nat) : number B (ds ++ [d]) = B * number B ds + d := by
  unfold number
  rw [List.reverse_append, List.reverse_singleton, List.singleton_append, Nat.ofDigits_cons]
  ring

theorem number_cons (B : Nat) (d : Nat) (ds : List Nat) : number B (d :: ds) = d * B ^ ds.length + number B ds := by
  unfold number
  rw [List.reverse_cons, Nat.ofDigits_append]
  simp only [Nat.ofDigits_singleton, List.length_reverse]
  ring

theorem number_lt {B : Nat} {ds : List Nat} (h : ∀ d ∈ ds, d < B) : number B ds < B ^ ds.length := by
  induction ds with
  | nil => simp [number_nil]
  | cons d ds ih =>
    rw [number_cons, List.length_cons, pow_succ]
    have h1 := h d (by simp)
    have h2 := ih fun x hx => h x (by simp [hx])
    have : (d + 1) * B ^ ds.length ≤ B * B ^ ds.length := Nat.mul_le_mul_right _ (by omega)
    linarith

theorem bytes_lt (b : Bytes) : ∀ d ∈ b.map UInt8.toNat, d < 256 := by
  intro d hd
  obtain ⟨x, -, rfl⟩ := List.mem_map.1 hd
  exact x.toNat_lt

theorem ofNat_eq {n : Nat} {x : UInt8} (h : n = x.toNat) : UInt8.ofNat n = x := by
  rw [h]
  simp

theorem divide {X Y V W M : Nat} (hv : V < M) (hw : W < M) : X * M + V = Y * M + W ↔ X = Y ∧ V = W := by
  constructor
  · intro h
    have hM : 0 < M := by omega
    have h1 : (X * M + V) / M = (Y * M + W) / M := by rw [h]
    have h2 : (X * M + V) % M = (Y * M + W) % M := by rw [h]
    rw [Nat.add_comm, Nat.add_mul_div_right _ _ hM, Nat.div_eq_of_lt hv, Nat.add_comm (Y * M), Nat.add_mul_div_right _ _ hM, Nat.div_eq_of_lt hw] at h1
    rw [Nat.add_comm, Nat.add_mul_mod_self_right, Nat.mod_eq_of_lt hv, Nat.add_comm (Y * M), Nat.add_mul_mod_self_right, Nat.mod_eq_of_lt hw] at h2
    omega
  · rintro ⟨rfl, rfl⟩
    rfl

/-- the numbers of groups -/
theorem group_number {a b c : UInt8} {r : Bytes} {i j k l : Nat} {vs : List Nat} {pad extra : Nat}
    (hlen : 6 * vs.length = 8 * r.length + 2 * pad) (hr : ∀ v ∈ vs, v < 64) (he : extra < 4 ^ pad) :
    (number 64 (i :: j :: k :: l :: vs) = number 256 ((a :: b :: c :: r).map UInt8.toNat) * 4 ^ pad + extra) ↔
      i * 262144 + j * 4096 + k * 64 + l = a.toNat * 65536 + b.toNat * 256 + c.toNat ∧
        number 64 vs = number 256 (r.map UInt8.toNat) * 4 ^ pad + extra := by
  simp only [List.map_cons, number_cons, List.length_cons, List.length_map]
  have hp : 64 ^ vs.length = 256 ^ r.length * 4 ^ pad := by
    rw [show (64 : Nat) = 2 ^ 6 by norm_num, show (256 : Nat) = 2 ^ 8 by norm_num, show (4 : Nat) = 2 ^ 2 by norm_num, ← pow_mul, ← pow_mul, ← pow_mul,
      ← pow_add, hlen]
  have hv := number_lt hr
  have hn := number_lt (bytes_lt r)
  rw [List.length_map] at hn
  generalize number 64 vs = V at *
  generalize number 256 (r.map UInt8.toNat) = N at *
  rw [hp] at hv
  have e1 : i * 64 ^ (vs.length + 1 + 1 + 1) + (j * 64 ^ (vs.length + 1 + 1) + (k * 64 ^ (vs.length + 1) + (l * 64 ^ vs.length + V))) =
      (i * 262144 + j * 4096 + k * 64 + l) * (256 ^ r.length * 4 ^ pad) + V := by
    rw [← hp]; ring
  have e2 : (a.toNat * 256 ^ (r.length + 1 + 1) + (b.toNat * 256 ^ (r.length + 1) + (c.toNat * 256 ^ r.length + N))) * 4 ^ pad + extra =
      (a.toNat * 65536 + b.toNat * 256 + c.toNat) * (256 ^ r.length * 4 ^ pad) + (N * 4 ^ pad + extra) := by ring
  rw [e1, e2]
  have hlow : N * 4 ^ pad + extra < 256 ^ r.length * 4 ^ pad := by
    have : (N + 1) * 4 ^ pad ≤ 256 ^ r.length * 4 ^ pad := Nat.mul_le_mul_right _ (by omega)
    linarith
  exact divide hv hlow

/-! ## reading -/

theorem writes_nil (b : Bytes) (e : Nat) : Writes [] b e ↔ b = [] ∧ e = 0 := by
  constructor
  · rintro ⟨vs, pad, -, -, h3, h4, h5, h6⟩
    obtain ⟨h7, h8⟩ := List.append_eq_nil_iff.1 h3.symm
    have hv : vs = [] := by simpa using h7
    have hp : pad = 0 := by simpa using h8
    subst hv hp
    have hb : b = [] := by
      simpa using h4
    subst hb
    simp at h6
    exact ⟨rfl, h6⟩
  · rintro ⟨rfl, rfl⟩
    exact ⟨[], 0, by simp, by omega, rfl, rfl, rfl, by simp⟩

/-- the head of a text is a group of four letters -/
theorem writes_cons {a b c d : Char} {r : Str} {x : Bytes} {e : Nat} :
    Writes (a :: b :: c :: d :: r) x e ↔
      (∃ i j, i < 64 ∧ j < 64 ∧ a = letter i ∧ b = letter j ∧ c = '=' ∧ d = '=' ∧ r = [] ∧ x = [UInt8.ofNat (i * 4 + j / 16)] ∧ e = j % 16) ∨
      (∃ i j k, i < 64 ∧ j < 64 ∧ k < 64 ∧ a = letter i ∧ b = letter j ∧ c = letter k ∧ d = '=' ∧ r = [] ∧
        x = [UInt8.ofNat (i * 4 + j / 16), UInt8.ofNat (j % 16 * 16 + k / 4)] ∧ e = k % 4) ∨
      (∃ i j k l y, i < 64 ∧ j < 64 ∧ k < 64 ∧ l < 64 ∧ a = letter i ∧ b = letter j ∧ c = letter k ∧ d = letter l ∧
        x = UInt8.ofNat (i * 4 + j / 16) :: UInt8.ofNat (j % 16 * 16 + k / 4) :: UInt8.ofNat (k % 4 * 64 + l) :: y ∧ Writes r y e) := by
  constructor
  · rintro ⟨vs, pad, h1, h2, h3, h4, h5, h6⟩
    simp only [← letter_eq] at h3
    match vs, h1, h3, h4, h5 with
    | [], _, h3, h4, _ =>
      have := congrArg List.length h3
      simp at this
      omega
    | [i], h1, h3, h4, _ =>
      simp at h4
      omega
    | [i, j], h1, h3, h4, h5 =>
      left
      have hp : pad = 2 := by
        have := congrArg List.length h3
        simp at this
        omega
      subst hp
      have hx : x.length = 1 := by simp at h4; omega
      obtain ⟨x0, rfl⟩ := List.length_eq_one_iff.1 hx
      have hi := h1 i (by simp)
      have hj := h1 j (by simp)
      simp only [List.map_cons, List.map_nil, List.replicate, List.cons_append, List.nil_append, List.cons.injEq] at h3
      obtain ⟨r1, r2, r3, r4, r5⟩ := h3
      simp [number_cons, number_nil] at h5
      have := x0.toNat_lt
      refine ⟨i, j, hi, hj, r1, r2, r3, r4, r5, ?_, by omega⟩
      rw [ofNat_eq (x := x0) (by omega)]
    | [i, j, k], h1, h3, h4, h5 =>
      right; left
      have hp : pad = 1 := by
        have := congrArg List.length h3
        simp at this
        simp at h4
        omega
      subst hp
      have hx : x.length = 2 := by simp at h4; omega
      obtain ⟨x0, x1, rfl⟩ := List.length_eq_two.1 hx
      have hi := h1 i (by simp)
      have hj := h1 j (by simp)
      have hk := h1 k (by simp)
      simp only [List.map_cons, List.map_nil, List.replicate, List.cons_append, List.nil_append, List.cons.injEq] at h3
      obtain ⟨r1, r2, r3, r4, r5⟩ := h3
      simp [number_cons, number_nil] at h5
      have := x0.toNat_lt
      have := x1.toNat_lt
      refine ⟨i, j, k, hi, hj, hk, r1, r2, r3, r4, r5, ?_, by omega⟩
      rw [ofNat_eq (x := x0) (by omega), ofNat_eq (x := x1) (by omega)]
    | i :: j :: k :: l :: vs, h1, h3, h4, h5 =>
      right; right
      have hx : 3 ≤ x.length := by simp at h4; omega
      match x, hx, h4, h5 with
      | x0 :: x1 :: x2 :: y, _, h4, h5 =>
        have hi := h1 i (by simp)
        have hj := h1 j (by simp)
        have hk := h1 k (by simp)
        have hl := h1 l (by simp)
        have hvs : ∀ v ∈ vs, v < 64 := fun v hv => h1 v (by simp [hv])
        simp only [List.map_cons, List.cons_append, List.cons.injEq] at h3
        obtain ⟨r1, r2, r3, r4, r5⟩ := h3
        have hlen : 6 * vs.length = 8 * y.length + 2 * pad := by simp at h4; omega
        obtain ⟨g1, g2⟩ := (group_number hlen hvs h6).1 h5
        have := x0.toNat_lt
        have := x1.toNat_lt
        have := x2.toNat_lt
        refine ⟨i, j, k, l, y, hi, hj, hk, hl, r1, r2, r3, r4, ?_, vs, pad, hvs, h2, by simpa only [← letter_eq] using r5, hlen, g2, h6⟩
        rw [ofNat_eq (x := x0) (by omega), ofNat_eq (x := x1) (by omega), ofNat_eq (x := x2) (by omega)]
  · rintro (⟨i, j, hi, hj, rfl, rfl, rfl, rfl, rfl, rfl, rfl⟩ | ⟨i, j, k, hi, hj, hk, rfl, rfl, rfl, rfl, rfl, rfl, rfl⟩ |
      ⟨i, j, k, l, y, hi, hj, hk, hl, rfl, rfl, rfl, rfl, rfl, vs, pad, h1, h2, h3, h4, h5, h6⟩)
    · refine ⟨[i, j], 2, by simp [hi, hj], by omega, by simp [letter_eq, List.replicate], by simp, ?_, by omega⟩
      simp [number_cons, number_nil]
      omega
    · refine ⟨[i, j, k], 1, by simp [hi, hj, hk], by omega, by simp [letter_eq, List.replicate], by simp, ?_, by omega⟩
      simp [number_cons, number_nil]
      omega
    · refine ⟨i :: j :: k :: l :: vs, pad, ?_, h2, by rw [h3]; simp [letter_eq], by simp; omega, ?_, h6⟩
      · intro v hv
        simp only [List.mem_cons] at hv
        rcases hv with rfl | rfl | rfl | rfl | hv
        · exact hi
        · exact hj
        · exact hk
        · exact hl
        · exact h1 v hv
      · refine (group_number h4 h1 h6).2 ⟨?_, h5⟩
        simp
        omega

theorem writes_short {t : Str} (h : t.length = 1 ∨ t.length = 2 ∨ t.length = 3) (x : Bytes) (e : Nat) : ¬ Writes t x e := by
  rintro ⟨vs, pad, -, -, h3, h4, -⟩
  have := congrArg List.length h3
  simp at this
  omega

theorem decodeGroups_iff (t : Str) (b : Bytes) : decodeGroups t = some b ↔ ∃ e, Writes t b e := by
  match t with
  | [] => simp [decodeGroups, writes_nil, eq_comm]
  | [a] => simp [decodeGroups, writes_short]
  | [a, c] => simp [decodeGroups, writes_short]
  | [a, c, d] => simp [decodeGroups, writes_short]
  | a :: c :: d :: f :: r =>
    have ih := decodeGroups_iff r
    simp only [writes_cons]
    rw [decodeGroups]
    constructor
    · intro h
      split at h
      · rename_i i j hi hj
        obtain ⟨gi, rfl⟩ := of_index hi
        obtain ⟨gj, rfl⟩ := of_index hj
        split at h
        · rename_i hd
          split at h
          · rename_i hf
            cases h
            exact ⟨_, .inl ⟨i, j, gi, gj, rfl, rfl, hd, hf.1, hf.2, rfl, rfl⟩⟩
          · cases h
        · split at h
          · cases h
          · rename_i k hk
            obtain ⟨gk, rfl⟩ := of_index hk
            split at h
            · rename_i hf
              split at h
              · rename_i hr
                cases h
                exact ⟨_, .inr (.inl ⟨i, j, k, gi, gj, gk, rfl, rfl, rfl, hf, hr, rfl, rfl⟩)⟩
              · cases h
            · split at h
              · rename_i l y hl hy
                cases h
                obtain ⟨gl, rfl⟩ := of_index hl
                obtain ⟨e, he⟩ := (ih y).1 hy
                exact ⟨e, .inr (.inr ⟨i, j, k, l, y, gi, gj, gk, gl, rfl, rfl, rfl, rfl, rfl, he⟩)⟩
              · cases h
      · cases h
    · rintro ⟨e, ⟨i, j, hi, hj, rfl, rfl, rfl, rfl, rfl, rfl, -⟩ | ⟨i, j, k, hi, hj, hk, rfl, rfl, rfl, rfl, rfl, rfl, -⟩ |
        ⟨i, j, k, l, y, hi, hj, hk, hl, rfl, rfl, rfl, rfl, rfl, he⟩⟩
      · simp [index_letter hi, index_letter hj]
      · simp [index_letter hi, index_letter hj, index_letter hk, (letter_plain hk).1]
      · rw [index_letter hi, index_letter hj, index_letter hk, index_letter hl, (ih y).2 ⟨e, he⟩]
        simp [(letter_plain hk).1, (letter_plain hl).1]

/-- **C131**: a text is read as a message exactly if, without its line ends, it is base64 of the message, whatever the bits are that were added at its end. -/
theorem c131_read (t : Str) (b : Bytes) : decode t = some b ↔ ∃ extra, Writes (unbroken t) b extra := decodeGroups_iff (unbroken t) b

/-! ## writing -/

theorem encode_text (b : Bytes) : IsText (encode b) b := by
  unfold IsText
  match b with
  | [] => exact (writes_nil _ _).2 ⟨rfl, rfl⟩
  | [a] =>
    have := a.toNat_lt
    rw [encode]
    refine writes_cons.2 (.inl ⟨_, _, by omega, by omega, rfl, rfl, rfl, rfl, rfl, ?_, by omega⟩)
    rw [ofNat_eq (x := a) (by omega)]
  | [a, c] =>
    have := a.toNat_lt
    have := c.toNat_lt
    rw [encode]
    refine writes_cons.2 (.inr (.inl ⟨_, _, _, by omega, by omega, by omega, rfl, rfl, rfl, rfl, rfl, ?_, by omega⟩))
    rw [ofNat_eq (x := a) (by omega), ofNat_eq (x := c) (by omega)]
  | a :: c :: d :: r =>
    have := a.toNat_lt
    have := c.toNat_lt
    have := d.toNat_lt
    rw [encode]
    refine writes_cons.2 (.inr (.inr ⟨_, _, _, _, r, by omega, by omega, by omega, by omega, rfl, rfl, rfl, rfl, ?_, encode_text r⟩))
    rw [ofNat_eq (x := a) (by omega), ofNat_eq (x := c) (by omega), ofNat_eq (x := d) (by omega)]

theorem text_unique {t t' : Str} {b : Bytes} {e : Nat} (h : Writes t b e) (h' : Writes t' b e) : t = t' := by
  obtain ⟨vs, pad, h1, h2, rfl, h4, h5, h6⟩ := h
  obtain ⟨vs', pad', h1', h2', rfl, h4', h5', h6'⟩ := h'
  have hp : pad = pad' := by omega
  subst hp
  have hv : vs = vs' := by
    have hn : number 64 vs = number 64 vs' := by rw [h5, h5']
    have hl : vs.length = vs'.length := by omega
    clear h4 h5 h6 h4' h5' h6' h2 h2'
    induction vs generalizing vs' with
    | nil => exact (List.eq_nil_of_length_eq_zero hl.symm).symm
    | cons v vs ih =>
      cases vs' with
      | nil => simp at hl
      | cons w ws =>
        have hl' : vs.length = ws.length := by simpa using hl
        rw [number_cons, number_cons, hl'] at hn
        have g1 := number_lt (B := 64) (ds := vs) fun x hx => h1 x (by simp [hx])
        have g2 := number_lt (B := 64) (ds := ws) fun x hx => h1' x (by simp [hx])
        rw [hl'] at g1
        obtain ⟨rfl, h⟩ := (divide g1 g2).1 hn
        rw [ih (fun x hx => h1 x (by simp [hx])) ws (fun x hx => h1' x (by simp [hx])) h hl']
  rw [hv]

/-- **C131**: the text which an answer gives for a message is base64 of it, and the only text without line ends and with added bits that are zero. -/
theorem c131_write (b : Bytes) (t : Str) : IsText t b ↔ t = encode b :=
  ⟨fun h => text_unique h (encode_text b), fun h => h ▸ encode_text b⟩

theorem text_unbroken {t : Str} {b : Bytes} {e : Nat} (h : Writes t b e) : unbroken t = t := by
  obtain ⟨vs, pad, h1, -, rfl, -⟩ := h
  unfold unbroken
  rw [List.filter_eq_self]
  intro c hc
  rcases List.mem_append.1 hc with hc | hc
  · obtain ⟨v, hv, rfl⟩ := List.mem_map.1 hc
    rw [← letter_eq]
    have := letter_plain (h1 v hv)
    simp [this.2.1, this.2.2]
  · rw [List.eq_of_mem_replicate hc]
    decide

/-- **C131**: every message can be asked for: its text is read as the message. -/
theorem c131_roundtrip (b : Bytes) : decode (encode b) = some b := by
  rw [c131_read, text_unbroken (encode_text b)]
  exact ⟨0, encode_text b⟩

/-- **C131**: the text in an answer is the one in the request exactly if the request used the text of the message (no line ends, added bits zero). -/
theorem c131_answer (t : Str) (b : Bytes) : encode b = t ↔ IsText t b := by rw [c131_write, eq_comm]

/-- **C131**: each message has its own text. -/
theorem c131_injective (b b' : Bytes) (h : encode b = encode b') : b = b' := by
  have := c131_roundtrip b
  rw [h, c131_roundtrip] at this
  exact (Option.some.inj this).symm

/-! ## the ceremony of messages -/

theorem no_comma (b : Bytes) : ',' ∉ encode b := by
  obtain ⟨vs, pad, h1, -, h3, -⟩ := encode_text b
  rw [h3]
  intro h
  rcases List.mem_append.1 h with h | h
  · obtain ⟨v, hv, h⟩ := List.mem_map.1 h
    have : ∀ k : Fin 64, letters.getD k 'A' ≠ ',' := by decide +kernel
    exact this ⟨v, h1 v hv⟩ h
  · have := List.eq_of_mem_replicate h
    cases this

/-- Full statement: requests for the same messages (in any order) by the same signers lead to the same ceremony. -/
def SameCeremony {D : Type} (sha : Str → D) : Prop :=
  ∀ (ts ts' : List Str) (bs bs' : List Bytes) (k : List Str) (p : Str) (h : Int) (v : Str), ts.map decode = bs.map some → ts'.map decode = bs'.map some →
    bs.Perm bs' → MsgId.requestToMsgId sha (.keysign p ts k h v) = MsgId.requestToMsgId sha (.keysign p ts' k h v)

/-- C131 (partial; missing: texts with line ends or with added bits that are not zero): requests of the same signers, in which messages are written in the
way answers write them, lead to the same ceremony exactly if they are for the same messages. -/
theorem c131_ceremony_partial {D : Type} (sha : Str → D) (L : Nat) (hL : 0 < L) (p p' : Str) (bs bs' : List Bytes)
    (k : List Str) (hk : ∀ x ∈ k, x.length = L) (hk0 : k ≠ []) (b b' : Int) (v v' : Str) (hb : bs ≠ []) (hb' : bs' ≠ [])
    (hsha : MsgId.NoCollision sha (MsgId.msgData (.keysign p (bs.map encode) k b v)) (MsgId.msgData (.keysign p' (bs'.map encode) k b' v'))) :
    MsgId.requestToMsgId sha (.keysign p (bs.map encode) k b v) = MsgId.requestToMsgId sha (.keysign p' (bs'.map encode) k b' v') ↔ bs.Perm bs' := by
  constructor
  · intro h
    have hsome : ∃ d, MsgId.requestToMsgId sha (.keysign p (bs.map encode) k b v) = .ok d := by
      by_contra hn
      have := (MsgId.c09_no_id_iff_blank sha (.keysign p (bs.map encode) k b v)).1 fun d hd => hn ⟨d, hd⟩
      obtain ⟨x, xs, rfl⟩ := List.exists_cons_of_ne_nil hk0
      have hx := hk x (by simp)
      simp [MsgId.Blank] at this
      obtain ⟨-, h2⟩ := this
      rw [h2.1] at hx
      simp at hx
      omega
    obtain ⟨d, hd⟩ := hsome
    have hc : ∀ (l : List Bytes), ∀ x ∈ l.map encode, ',' ∉ x := by
      intro l x hx
      obtain ⟨y, -, rfl⟩ := List.mem_map.1 hx
      exact no_comma y
    have := (MsgId.c10_keysign_ids_separate_partial sha L hL p p' (bs.map encode) (bs'.map encode) k k b b' v v' hk hk rfl (by simpa using hb)
      (by simpa using hb') (hc bs) (hc bs') hsha d hd (h ▸ hd)).1
    have h2 := this.map decode
    rw [List.map_map, List.map_map] at h2
    have e : decode ∘ encode = some := by funext x; exact c131_roundtrip x
    rw [e] at h2
    exact (List.map_perm_map_iff (Option.some_injective _)).1 h2
  · intro h
    rw [MsgId.c09_msgid_order_independent sha _ _ (.keysign p b v (h.map encode) (List.Perm.refl k))]
    exact MsgId.c10_pool_key_ignored sha _ _ _ _ _ _ _ _

/-- C131 is false: two texts of one message (they differ in a bit which no reader looks at) lead nodes to different ceremonies, which never meet; the
same for a line end. -/
theorem c131_other_ceremony {D : Type} (sha : Str → D) (hsha : sha "YQ==k".toList ≠ sha "YR==k".toList) :
    decode "YQ==".toList = some [97] ∧ decode "YR==".toList = some [97] ∧ decode "YQ=\n=".toList = some [97] ∧
    MsgId.requestToMsgId sha (.keysign [] ["YQ==".toList] ["k".toList] 0 []) ≠ MsgId.requestToMsgId sha (.keysign [] ["YR==".toList] ["k".toList] 0 []) ∧
    ¬ SameCeremony sha := by
  have hne : MsgId.requestToMsgId sha (.keysign [] ["YQ==".toList] ["k".toList] 0 []) ≠
      MsgId.requestToMsgId sha (.keysign [] ["YR==".toList] ["k".toList] 0 []) := by
    intro h
    have e1 : MsgId.msgData (.keysign [] ["YQ==".toList] ["k".toList] 0 []) = "YQ==k".toList := by decide +kernel
    have e2 : MsgId.msgData (.keysign [] ["YR==".toList] ["k".toList] 0 []) = "YR==k".toList := by decide +kernel
    unfold MsgId.requestToMsgId MsgId.MsgToHashString at h
    rw [e1, e2, if_neg (by decide), if_neg (by decide)] at h
    injection h with h
    exact hsha h
  refine ⟨by decide +kernel, by decide +kernel, by decide +kernel, hne, fun h => hne ?_⟩
  exact h ["YQ==".toList] ["YR==".toList] [[97]] [[97]] _ _ _ _ (by decide +kernel) (by decide +kernel) (List.Perm.refl _)

/-! ## Examples -/

/-- C131: texts of messages of 0 to 4 bytes, and texts that are refused: too short, padding inside, a foreign letter, too much padding -/
example : encode [] = [] ∧ encode [255] = "/w==".toList ∧ encode [1, 2] = "AQI=".toList ∧ encode [1, 2, 3, 4] = "AQIDBA==".toList ∧
    decode "AQIDBA==".toList = some [1, 2, 3, 4] ∧ decode "AQI".toList = none ∧ decode "YQ==YQ==".toList = none ∧ decode "Y-==".toList = none ∧
    decode "Y===".toList = none := by decide +kernel

/-- C131: the bits added at the end -/
example : Writes "YR==".toList [97] 1 ∧ IsText "YQ==".toList [97] := by
  refine ⟨⟨[24, 17], 2, by decide, by decide, by decide +kernel, rfl, ?_, by decide⟩, (c131_write _ _).2 (by decide +kernel)⟩
  simp [number_cons, number_nil]

end Verif.Props.MessageTexts
