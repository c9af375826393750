import Verif.Model.JsonHttp
import Verif.Props.C134
import Verif.Props.C61

set_option linter.unusedSectionVars false

/-!
# C135: requests and answers of the HTTP end points
-/
namespace Verif.Props.JsonHttp
open Verif.MsgId (Str)
open Verif.Go Verif.Json Verif.JsonMsg Verif.JsonHttp Verif.Spec.Json Verif.Props.JsonTexts Verif.Props.JsonMessages Verif.Props.JsonReading
open Verif.Session (Signature)

/-! ## indentation -/

/-- what `Indent` writes before the first character of a value -/
def pre (need : Bool) (d : Nat) : Str := if need then newline (d + 1) else []

/-- the depth there -/
def dep (need : Bool) (d : Nat) : Nat := if need then d + 1 else d

theorem newline_space (d : Nat) : Space (newline d) := by
  intro c hc
  rcases List.mem_cons.1 hc with rfl | hc
  · simp
  · rw [(List.mem_replicate.1 hc).2]; simp

theorem pre_space (need : Bool) (d : Nat) : Space (pre need d) := by
  cases need
  · intro c hc; cases hc
  · exact newline_space _

theorem isSpace_iff (c : Char) : isSpace c = true ↔ c ∈ [' ', '\t', '\n', '\r'] := by
  simp [isSpace]
  tauto

theorem indent_space {w : Str} (hw : Space w) (d : Nat) (need : Bool) (r : Str) : indentFrom d need .out (w ++ r) = indentFrom d need .out r := by
  induction w with
  | nil => rfl
  | cons c w ih =>
    have hc : isSpace c = true := (isSpace_iff c).2 (hw c (by simp))
    rw [List.cons_append, indentFrom, if_pos hc]
    exact ih fun x hx => hw x (by simp [hx])

/-- a character which means nothing to `Indent` -/
def Ordinary (c : Char) : Prop := isSpace c = false ∧ c ≠ '}' ∧ c ≠ ']' ∧ c ≠ '{' ∧ c ≠ '[' ∧ c ≠ ',' ∧ c ≠ ':' ∧ c ≠ '"'

theorem indent_one {c : Char} (h : Ordinary c) (d : Nat) (need : Bool) (r : Str) :
    indentFrom d need .out (c :: r) = pre need d ++ c :: indentFrom (dep need d) false .out r := by
  obtain ⟨h1, h2, h3, h4, h5, h6, h7, h8⟩ := h
  rw [indentFrom, if_neg (by rw [h1]; decide), if_neg (by simp [h2, h3])]
  dsimp only
  have h9 : ¬ (c = '{' ∨ c = '[') := by simp [h4, h5]
  rw [if_neg h9, if_neg h6, if_neg h7, if_neg h8]
  rfl

theorem indent_word {t : Str} (h : ∀ c ∈ t, Ordinary c) (d : Nat) (r : Str) : indentFrom d false .out (t ++ r) = t ++ indentFrom d false .out r := by
  induction t with
  | nil => rfl
  | cons c t ih =>
    rw [List.cons_append, indent_one (h c (by simp))]
    show [] ++ c :: indentFrom d false .out (t ++ r) = _
    rw [ih fun x hx => h x (by simp [hx])]
    rfl

theorem indent_literal {t : Str} (h : ∀ c ∈ t, Ordinary c) (hne : t ≠ []) (d : Nat) (need : Bool) (r : Str) :
    indentFrom d need .out (t ++ r) = pre need d ++ t ++ indentFrom (dep need d) false .out r := by
  match t, hne with
  | c :: t, _ =>
    rw [List.cons_append, indent_one (h c (by simp)), indent_word fun x hx => h x (by simp [hx])]
    simp

theorem indent_piece {p : Piece} {t : Str} (h : IsPiece p t) (d : Nat) (need : Bool) (r : Str) :
    indentFrom d need .str (t ++ r) = t ++ indentFrom d need .str r := by
  cases h with
  | plain c _ h1 h2 =>
    show indentFrom d need .str (c :: r) = _
    rw [indentFrom, if_neg h1, if_neg h2]
    rfl
  | short c e _ =>
    show indentFrom d need .str ('\\' :: e :: r) = _
    rw [indentFrom, if_neg (by decide), if_pos rfl, indentFrom]
    rfl
  | code a b c e w x y z h1 h2 h3 h4 =>
    have hh : ∀ c n, Hex c n → c ≠ '"' ∧ c ≠ '\\' := by
      intro c n h
      have : c ∈ "0123456789abcdefABCDEF".toList := by
        rcases h with h | h
        · have := List.mem_of_getElem? h
          exact List.mem_of_mem_filter (p := fun _ => true) (by simp at this ⊢; tauto)
        · have := List.mem_of_getElem? h
          exact List.mem_of_mem_filter (p := fun _ => true) (by simp at this ⊢; tauto)
      constructor <;> rintro rfl <;> exact absurd this (by decide)
    show indentFrom d need .str ('\\' :: 'u' :: a :: b :: c :: e :: r) = _
    rw [indentFrom, if_neg (by decide), if_pos rfl, indentFrom, indentFrom, if_neg (hh a w h1).1, if_neg (hh a w h1).2, indentFrom,
      if_neg (hh b x h2).1, if_neg (hh b x h2).2, indentFrom, if_neg (hh c y h3).1, if_neg (hh c y h3).2, indentFrom, if_neg (hh e z h4).1,
      if_neg (hh e z h4).2]
    rfl

theorem indent_pieces {l : List Piece} {t : Str} (h : Pieces l t) (d : Nat) (need : Bool) (r : Str) :
    indentFrom d need .str (t ++ r) = t ++ indentFrom d need .str r := by
  induction h with
  | nil => rfl
  | cons h _ ih => rw [List.append_assoc, indent_piece h, ih, List.append_assoc]

theorem indent_string {s t : Str} (h : IsString s t) (d : Nat) (need : Bool) (r : Str) :
    indentFrom d need .out (t ++ r) = pre need d ++ t ++ indentFrom (dep need d) false .out r := by
  obtain ⟨l, u, rfl, hp, -⟩ := h
  show indentFrom d need .out ('"' :: (u ++ ['"'] ++ r)) = _
  rw [indentFrom, if_neg (by decide), if_neg (by decide)]
  dsimp only
  have h9 : ¬ ('"' = '{' ∨ '"' = '[') := by decide
  have h10 : ¬ ('"' = ',') := by decide
  have h11 : ¬ ('"' = ':') := by decide
  rw [if_neg h9, if_neg h10, if_neg h11, if_pos (rfl : '"' = '"'), List.append_assoc, indent_pieces hp]
  show _ ++ '"' :: (u ++ indentFrom _ _ .str ('"' :: r)) = _
  rw [indentFrom, if_pos rfl]
  show pre need d ++ _ = _
  simp [dep]

theorem elements_before {l : List J} {w t : Str} (hw : Space w) (h : Elements l t) : Elements l (w ++ t) := by
  have hj : ∀ {v : Str}, Space v → Space (w ++ v) := fun hv c hc => (List.mem_append.1 hc).elim (hw c) (hv c)
  cases h with
  | one h1 h2 h3 => have := Elements.one (hj h1) h2 h3; simpa using this
  | more h1 h2 h3 h4 => have := Elements.more (hj h1) h2 h3 h4; simpa using this

theorem members_before {l : List (Str × J)} {w t : Str} (hw : Space w) (h : Members l t) : Members l (w ++ t) := by
  have hj : ∀ {v : Str}, Space v → Space (w ++ v) := fun hv c hc => (List.mem_append.1 hc).elim (hw c) (hv c)
  cases h with
  | one h1 h2 h3 h4 h5 h6 => have := Members.one (hj h1) h2 h3 h4 h5 h6; simpa using this
  | more h1 h2 h3 h4 h5 h6 h7 => have := Members.more (hj h1) h2 h3 h4 h5 h6 h7; simpa using this

theorem space_append {v w : Str} (hv : Space v) (hw : Space w) : Space (v ++ w) := fun c hc => (List.mem_append.1 hc).elim (hv c) (hw c)

theorem elements_after {w : Str} (hw : Space w) (n : Nat) : ∀ {l : List J} {t : Str}, t.length ≤ n → Elements l t → Elements l (t ++ w) := by
  induction n with
  | zero =>
    intro l t hn h
    cases h with
    | one h1 h2 h3 => have := Elements.one h1 h2 (space_append h3 hw); simpa using this
    | more h1 h2 h3 h4 => simp at hn
  | succ n ih =>
    intro l t hn h
    cases h with
    | one h1 h2 h3 => have := Elements.one h1 h2 (space_append h3 hw); simpa using this
    | more h1 h2 h3 h4 => have := Elements.more h1 h2 h3 (ih (by simp at hn; omega) h4); simpa using this

theorem members_after {w : Str} (hw : Space w) (n : Nat) : ∀ {l : List (Str × J)} {t : Str}, t.length ≤ n → Members l t → Members l (t ++ w) := by
  induction n with
  | zero =>
    intro l t hn h
    cases h with
    | one h1 h2 h3 h4 h5 h6 => have := Members.one h1 h2 h3 h4 h5 (space_append h6 hw); simpa using this
    | more h1 h2 h3 h4 h5 h6 h7 => simp at hn
  | succ n ih =>
    intro l t hn h
    cases h with
    | one h1 h2 h3 h4 h5 h6 => have := Members.one h1 h2 h3 h4 h5 (space_append h6 hw); simpa using this
    | more h1 h2 h3 h4 h5 h6 h7 => have := Members.more h1 h2 h3 h4 h5 h6 (ih (by simp at hn; omega) h7); simpa using this

theorem indent_open (c : Char) (hc : c = '{' ∨ c = '[') (d : Nat) (need : Bool) (r : Str) :
    indentFrom d need .out (c :: r) = pre need d ++ c :: indentFrom (dep need d) true .out r := by
  rw [indentFrom]
  have h1 : isSpace c = false := by rcases hc with rfl | rfl <;> decide
  have h2 : ¬ (c = '}' ∨ c = ']') := by rcases hc with rfl | rfl <;> decide
  rw [if_neg (by rw [h1]; decide), if_neg h2]
  dsimp only
  rw [if_pos hc]
  rfl

theorem indent_close (c : Char) (hc : c = '}' ∨ c = ']') (d : Nat) (need : Bool) (r : Str) :
    indentFrom d need .out (c :: r) = if need then c :: indentFrom d false .out r else newline (d - 1) ++ c :: indentFrom (d - 1) false .out r := by
  have h1 : isSpace c = false := by rcases hc with rfl | rfl <;> decide
  rw [indentFrom, if_neg (by rw [h1]; decide), if_pos hc]

theorem indent_comma (d : Nat) (r : Str) : indentFrom d false .out (',' :: r) = ',' :: (newline d ++ indentFrom d false .out r) := by
  rw [indentFrom, if_neg (by decide), if_neg (by decide)]
  rfl

theorem indent_colon (d : Nat) (r : Str) : indentFrom d false .out (':' :: r) = ':' :: ' ' :: indentFrom d false .out r := by
  rw [indentFrom, if_neg (by decide), if_neg (by decide)]
  rfl

theorem indent_all (n : Nat) :
    (∀ j t, t.length ≤ n → IsValue j t → ∀ d need r, ∃ t', IsValue j t' ∧
      indentFrom d need .out (t ++ r) = pre need d ++ t' ++ indentFrom (dep need d) false .out r) ∧
    (∀ l t, t.length ≤ n → Elements l t → ∀ d need r, ∃ t', Elements l t' ∧ indentFrom d need .out (t ++ r) = t' ++ indentFrom (dep need d) false .out r) ∧
    (∀ l t, t.length ≤ n → Members l t → ∀ d need r, ∃ t', Members l t' ∧ indentFrom d need .out (t ++ r) = t' ++ indentFrom (dep need d) false .out r) := by
  have word : ∀ t : Str, t ∈ ["null".toList, "true".toList, "false".toList] → ∀ c ∈ t, Ordinary c := by unfold Ordinary; decide
  have nums : ∀ c, inNumber c = true → Ordinary c := by
    intro c h
    have : c ∈ "0123456789".toList ∨ c = '-' ∨ c = '+' ∨ c = '.' ∨ c = 'e' ∨ c = 'E' := by
      rw [← digit_iff]
      simpa [inNumber, or_assoc] using h
    unfold Ordinary
    rcases this with h | rfl | rfl | rfl | rfl | rfl
    · rename_i h0; clear h0; revert c; decide
    all_goals decide
  have step : ∀ n, (∀ m, m + 1 = n → (∀ l t, t.length ≤ m → Elements l t → ∀ d need r, ∃ t', Elements l t' ∧
        indentFrom d need .out (t ++ r) = t' ++ indentFrom (dep need d) false .out r) ∧
      (∀ l t, t.length ≤ m → Members l t → ∀ d need r, ∃ t', Members l t' ∧
        indentFrom d need .out (t ++ r) = t' ++ indentFrom (dep need d) false .out r)) →
      ∀ j t, t.length ≤ n → IsValue j t → ∀ d need r, ∃ t', IsValue j t' ∧
        indentFrom d need .out (t ++ r) = pre need d ++ t' ++ indentFrom (dep need d) false .out r := by
    intro n ih j t hn h d need r
    cases h with
    | null => exact ⟨_, .null, indent_literal (word _ (by simp)) (by decide) _ _ _⟩
    | true => exact ⟨_, .true, indent_literal (word _ (by simp)) (by decide) _ _ _⟩
    | false => exact ⟨_, .false, indent_literal (word _ (by simp)) (by decide) _ _ _⟩
    | num h =>
      obtain ⟨c, u, rfl⟩ := number_ne h
      exact ⟨_, .num h, indent_literal (fun x hx => nums x (number_chars h x hx)) (by simp) _ _ _⟩
    | str h => exact ⟨_, .str h, indent_string h _ _ _⟩
    | @arrNil w hw =>
      refine ⟨_, .arrNil (w := []) no_space, ?_⟩
      rw [List.cons_append, indent_open _ (.inr rfl), List.append_assoc, indent_space hw]
      show _ ++ '[' :: indentFrom _ true .out (']' :: r) = _
      rw [indent_close _ (.inr rfl), if_pos rfl]
      simp
    | @objNil w hw =>
      refine ⟨_, .objNil (w := []) no_space, ?_⟩
      rw [List.cons_append, indent_open _ (.inl rfl), List.append_assoc, indent_space hw]
      show _ ++ '{' :: indentFrom _ true .out ('}' :: r) = _
      rw [indent_close _ (.inl rfl), if_pos rfl]
      simp
    | @arr l u h =>
      match n, hn with
      | 0, hn => simp at hn
      | m + 1, hn =>
        obtain ⟨u', h1, h2⟩ := (ih m rfl).1 l u (by simp at hn; omega) h (dep need d) true (']' :: r)
        refine ⟨_, .arr (elements_after (newline_space (dep need d)) _ (Nat.le_refl _) h1), ?_⟩
        rw [List.cons_append, indent_open _ (.inr rfl), List.append_assoc, List.singleton_append, h2, indent_close _ (.inr rfl), if_neg (by decide)]
        simp [dep]
    | @obj l u h =>
      match n, hn with
      | 0, hn => simp at hn
      | m + 1, hn =>
        obtain ⟨u', h1, h2⟩ := (ih m rfl).2 l u (by simp at hn; omega) h (dep need d) true ('}' :: r)
        refine ⟨_, .obj (members_after (newline_space (dep need d)) _ (Nat.le_refl _) h1), ?_⟩
        rw [List.cons_append, indent_open _ (.inl rfl), List.append_assoc, List.singleton_append, h2, indent_close _ (.inl rfl), if_neg (by decide)]
        simp [dep]
  have stepE : ∀ n, (∀ j t, t.length ≤ n → IsValue j t → ∀ d need r, ∃ t', IsValue j t' ∧
        indentFrom d need .out (t ++ r) = pre need d ++ t' ++ indentFrom (dep need d) false .out r) →
      (∀ m, m + 1 = n → ∀ l t, t.length ≤ m → Elements l t → ∀ d need r, ∃ t', Elements l t' ∧
        indentFrom d need .out (t ++ r) = t' ++ indentFrom (dep need d) false .out r) →
      ∀ l t, t.length ≤ n → Elements l t → ∀ d need r, ∃ t', Elements l t' ∧
        indentFrom d need .out (t ++ r) = t' ++ indentFrom (dep need d) false .out r := by
    intro n hv ih l t hn h d need r
    cases h with
    | @one j w u w' hw hu hw' =>
      obtain ⟨u', h1, h2⟩ := hv j u (by simp at hn; omega) hu d need (w' ++ r)
      refine ⟨_, .one (pre_space need d) h1 no_space, ?_⟩
      rw [List.append_assoc, List.append_assoc, indent_space hw, h2, indent_space hw']
      simp
    | @more j w u w' v l hw hu hw' hl =>
      match n, hn with
      | 0, hn => simp at hn
      | m + 1, hn =>
        obtain ⟨u', h1, h2⟩ := hv j u (by simp at hn; omega) hu d need (w' ++ ',' :: (v ++ r))
        obtain ⟨v', h3, h4⟩ := ih m rfl l v (by simp at hn; omega) hl (dep need d) false r
        refine ⟨_, .more (pre_space need d) h1 no_space (elements_before (newline_space (dep need d)) h3), ?_⟩
        rw [show w ++ u ++ w' ++ ',' :: v ++ r = w ++ (u ++ (w' ++ ',' :: (v ++ r))) by simp, indent_space hw, h2, indent_space hw', indent_comma, h4]
        simp [dep]
  have stepM : ∀ n, (∀ j t, t.length ≤ n → IsValue j t → ∀ d need r, ∃ t', IsValue j t' ∧
        indentFrom d need .out (t ++ r) = pre need d ++ t' ++ indentFrom (dep need d) false .out r) →
      (∀ m, m + 1 = n → ∀ l t, t.length ≤ m → Members l t → ∀ d need r, ∃ t', Members l t' ∧
        indentFrom d need .out (t ++ r) = t' ++ indentFrom (dep need d) false .out r) →
      ∀ l t, t.length ≤ n → Members l t → ∀ d need r, ∃ t', Members l t' ∧
        indentFrom d need .out (t ++ r) = t' ++ indentFrom (dep need d) false .out r := by
    intro n hv ih l t hn h d need r
    have one : Space [' '] := by intro c hc; simpa using Or.inl (List.mem_singleton.1 hc)
    cases h with
    | @one nm j w m x y u w' hw hm hx hy hu hw' =>
      obtain ⟨u', h1, h2⟩ := hv j u (by simp at hn; omega) hu (dep need d) false (w' ++ r)
      refine ⟨_, .one (pre_space need d) hm no_space one h1 no_space, ?_⟩
      rw [show w ++ m ++ x ++ ':' :: (y ++ u ++ w') ++ r = w ++ (m ++ (x ++ ':' :: (y ++ (u ++ (w' ++ r))))) by simp, indent_space hw, indent_string hm,
        indent_space hx, indent_colon, indent_space hy, h2, indent_space hw']
      simp [pre, dep]
    | @more nm j w m x y u w' v l hw hm hx hy hu hw' hl =>
      match n, hn with
      | 0, hn => simp at hn
      | k + 1, hn =>
        obtain ⟨u', h1, h2⟩ := hv j u (by simp at hn; omega) hu (dep need d) false (w' ++ ',' :: (v ++ r))
        obtain ⟨v', h3, h4⟩ := ih k rfl l v (by simp at hn; omega) hl (dep need d) false r
        refine ⟨_, .more (pre_space need d) hm no_space one h1 no_space (members_before (newline_space (dep need d)) h3), ?_⟩
        rw [show w ++ m ++ x ++ ':' :: (y ++ u ++ w') ++ ',' :: v ++ r = w ++ (m ++ (x ++ ':' :: (y ++ (u ++ (w' ++ ',' :: (v ++ r)))))) by simp,
          indent_space hw, indent_string hm, indent_space hx, indent_colon, indent_space hy, h2, indent_space hw']
        show _ ++ ':' :: ' ' :: (pre false (dep need d) ++ u' ++ indentFrom (dep need d) false .out (',' :: (v ++ r))) = _
        rw [indent_comma, h4]
        simp [pre, dep]
  induction n with
  | zero =>
    have h := step 0 fun m hm => by omega
    exact ⟨h, stepE 0 h fun m hm => by omega, stepM 0 h fun m hm => by omega⟩
  | succ n ih =>
    have h := step (n + 1) fun m hm => by cases hm; exact ⟨ih.2.1, ih.2.2⟩
    exact ⟨h, stepE _ h fun m hm => by cases hm; exact ih.2.1, stepM _ h fun m hm => by cases hm; exact ih.2.2⟩

/-- an indented text says what the text says -/
theorem c135_indent {j : J} {t : Str} (h : IsValue j t) : IsValue j (indent t) := by
  obtain ⟨t', h1, h2⟩ := (indent_all t.length).1 j t (Nat.le_refl _) h 0 false []
  rw [indent]
  rw [List.append_nil] at h2
  rw [h2]
  simpa [pre, indentFrom] using h1

/-! ## requests -/

theorem says_str (z s : Str) : Says dStr z s (quote s) := ⟨.str s, .str (c132_quote _), rfl⟩

theorem says_texts (l : List Str) : Says (dList [] dStr) [] l (textsText l) := says_list fun a _ => says_str [] a

/-- characters before arbitrary bytes -/
theorem runes_append (s : Str) (b : Bytes) : runes (utf8 s ++ b) = s ++ runes b := by
  induction s with
  | nil => rfl
  | cons c s ih =>
    have e : utf8 (c :: s) ++ b = String.utf8EncodeChar c ++ (utf8 s ++ b) := by simp [utf8]
    rw [e]
    exact (c132_characters _ _).2 (Runes.char c ((c132_characters _ _).1 ih))

theorem decode_obj {α : Type} {fields : List (Slot α)} {l : List (String × Str)} {a b : α} (h : Reads fields l a b) (rest : Bytes) :
    decodeFirst a (dStruct fields) (utf8 (objText l) ++ rest) = some b := by
  obtain ⟨j, h1, h2, m, rfl⟩ := says_struct h
  unfold decodeFirst
  rw [runes_append]
  have := c132_first (w := []) no_space h1 (fun _ h => by cases h) (runes rest)
  rw [List.nil_append] at this
  rw [this]
  exact h2

/-- **C135**: a key generation request is read as it was written; what follows it in the body is not looked at -/
theorem c135_gen (r : Keygen.Request) (h : -2 ^ 63 ≤ r.blockHeight ∧ r.blockHeight < 2 ^ 63) (rest : Bytes) : readGen (utf8 (genText r) ++ rest) = some r := by
  obtain ⟨k, b, v⟩ := r
  have h : Reads genFields [("keys", textsText k), ("block_height", intText b), ("tss_version", quote v)] noGen ⟨k, b, v⟩ := (.cons _ rfl (says_field (says_texts _)) (.cons _ rfl (says_field (says_int _ h)) (.cons _ rfl (says_field (says_str _ _)) (.nil _))))
  exact decode_obj h rest

/-- a signing request is read as it was written -/
theorem c135_sign (r : KeySign.Request) (h : -2 ^ 63 ≤ r.blockHeight ∧ r.blockHeight < 2 ^ 63) (rest : Bytes) :
    readSign (utf8 (signText r) ++ rest) = some r := by
  obtain ⟨p, m, k, b, v⟩ := r
  have h : Reads signFields [("pool_pub_key", quote p), ("messages", textsText m), ("signer_pub_keys", textsText k), ("block_height", intText b),
      ("tss_version", quote v)] noSign ⟨p, m, k, b, v⟩ := (.cons _ rfl (says_field (says_str _ _)) (.cons _ rfl (says_field (says_texts _)) (.cons _ rfl (says_field (says_texts _))
    (.cons _ rfl (says_field (says_int _ h)) (.cons _ rfl (says_field (says_str _ _)) (.nil _))))))
  exact decode_obj h rest

/-! ### which bodies are read -/

def genParts : List (Part Keygen.Request) :=
  [⟨List Str, "keys", Keygen.Request.keys, fun w x => { w with keys := x }, dList [] dStr⟩,
   ⟨Int, "block_height", Keygen.Request.blockHeight, fun w x => { w with blockHeight := x }, dInt⟩,
   ⟨Str, "tss_version", Keygen.Request.version, fun w x => { w with version := x }, dStr⟩]

theorem genStruct : Struct genParts where
  names := List.pairwise_map.1 (by decide +kernel : (genParts.map fun p => p.name.toList).Pairwise fun a b => ¬ SameName a b)
  own := by simp [genParts]
  other := by simp [genParts]
  all a b h := by
    cases a; cases b
    simp only [genParts, List.forall_mem_cons] at h
    simp_all

def signParts : List (Part KeySign.Request) :=
  [⟨Str, "pool_pub_key", KeySign.Request.poolPubKey, fun w x => { w with poolPubKey := x }, dStr⟩,
   ⟨List Str, "messages", KeySign.Request.messages, fun w x => { w with messages := x }, dList [] dStr⟩,
   ⟨List Str, "signer_pub_keys", KeySign.Request.signerPubKeys, fun w x => { w with signerPubKeys := x }, dList [] dStr⟩,
   ⟨Int, "block_height", KeySign.Request.blockHeight, fun w x => { w with blockHeight := x }, dInt⟩,
   ⟨Str, "tss_version", KeySign.Request.version, fun w x => { w with version := x }, dStr⟩]

theorem signStruct : Struct signParts where
  names := List.pairwise_map.1 (by decide +kernel : (signParts.map fun p => p.name.toList).Pairwise fun a b => ¬ SameName a b)
  own := by simp [signParts]
  other := by simp [signParts]
  all a b h := by
    cases a; cases b
    simp only [signParts, List.forall_mem_cons] at h
    simp_all

theorem decodeFirst_iff {α : Type} (z b : α) (fields : List (Slot α)) (raw : Bytes) :
    decodeFirst z (dStruct fields) raw = some b ↔ ∃ w t r j, runes raw = w ++ t ++ r ∧ Space w ∧ IsValue j t ∧ dStruct fields j z = some b := by
  unfold decodeFirst
  constructor
  · intro h
    cases hf : firstValue (runes raw) with
    | none => rw [hf] at h; cases h
    | some j =>
      rw [hf] at h
      obtain ⟨w, t, r, h1, h2, h3⟩ := c132_first_value hf
      exact ⟨w, t, r, j, h1, h2, h3, h⟩
  · rintro ⟨w, t, r, j, h1, h2, h3, h4⟩
    rw [h1, c132_first h2 h3 (by rintro n rfl; cases h4)]
    exact h4

/-- A body is read as a key generation request exactly if it begins with the text of an object (or `null`) whose members for the three fields can be read. -/
theorem c135_gen_body (raw : Bytes) (q : Keygen.Request) : readGen raw = some q ↔ ∃ w t r j, runes raw = w ++ t ++ r ∧ Space w ∧ IsValue j t ∧
    ((j = .null ∧ q = noGen) ∨ ∃ l, j = .obj l ∧ readAll (dList [] dStr) (valuesFor "keys" l) [] = some q.keys ∧
      readAll dInt (valuesFor "block_height" l) 0 = some q.blockHeight ∧ readAll dStr (valuesFor "tss_version" l) [] = some q.version) := by
  rw [readGen, decodeFirst_iff]
  refine exists_congr fun w => exists_congr fun t => exists_congr fun r => exists_congr fun j => and_congr_right fun _ => and_congr_right fun _ =>
    and_congr_right fun _ => ?_
  rw [show genFields = genParts.map Part.slot from rfl, struct_iff genStruct]
  simp [genParts, noGen]

/-- likewise for a signing request -/
theorem c135_sign_body (raw : Bytes) (q : KeySign.Request) : readSign raw = some q ↔ ∃ w t r j, runes raw = w ++ t ++ r ∧ Space w ∧ IsValue j t ∧
    ((j = .null ∧ q = noSign) ∨ ∃ l, j = .obj l ∧ readAll dStr (valuesFor "pool_pub_key" l) [] = some q.poolPubKey ∧
      readAll (dList [] dStr) (valuesFor "messages" l) [] = some q.messages ∧
      readAll (dList [] dStr) (valuesFor "signer_pub_keys" l) [] = some q.signerPubKeys ∧
      readAll dInt (valuesFor "block_height" l) 0 = some q.blockHeight ∧ readAll dStr (valuesFor "tss_version" l) [] = some q.version) := by
  rw [readSign, decodeFirst_iff]
  refine exists_congr fun w => exists_congr fun t => exists_congr fun r => exists_congr fun j => and_congr_right fun _ => and_congr_right fun _ =>
    and_congr_right fun _ => ?_
  rw [show signFields = signParts.map Part.slot from rfl, struct_iff signStruct]
  simp [signParts, noSign]

/-! ## answers -/

theorem says_nil (z b : Bytes) : Says dBytes z b (nilText b) := by
  unfold nilText
  split
  · rename_i h; subst h; exact ⟨.null, .null, rfl⟩
  · exact says_bytes _ _

theorem says_node (n : Blame.Node Str) : Says (dStruct nodeFields) ⟨[], [], []⟩ n (nodeText n) := by
  obtain ⟨k, d, s⟩ := n
  refine says_obj (.cons _ rfl (says_field (says_str _ _)) (.cons _ rfl (says_field (says_nil _ _)) ?_))
  unfold ifNot
  by_cases h : s = []
  · subst h; exact .nil _
  · rw [if_neg (by simpa using h)]
    exact .cons _ rfl (says_field (says_bytes _ _)) (.nil _)

theorem says_blame (b : Blame.Blame Str) : Says (dStruct blameFields) ⟨"", false, []⟩ b (blameText b) := by
  obtain ⟨r, u, ns⟩ := b
  refine says_obj (.cons _ rfl (says_field (says_string _ _)) (.cons _ rfl (says_field (says_bool _ _)) ?_))
  unfold ifNot
  cases ns with
  | nil => exact .nil _
  | cons n ns => exact .cons _ rfl (says_field (says_list fun a _ => says_node a)) (.nil _)

theorem status_small (s : Server.Status) : statusNumber s < 256 := by cases s <;> decide

/-- A client who reads the answer of a key generation finds in it exactly the answer. -/
theorem c135_gen_answer (r : Keygen.Response) : clientGen (utf8 (genAnswer r)) = some ⟨r.pubKey, r.poolAddress, statusNumber r.status, r.blame⟩ := by
  obtain ⟨k, a, s, b⟩ := r
  exact unmarshal_says (says_obj (.cons _ rfl (says_field (says_str _ _)) (.cons _ rfl (says_field (says_str _ _)) (.cons _ rfl
    (says_field (says_u8 _ (status_small s))) (.cons _ rfl (says_field (says_blame b)) (.nil _))))))

theorem says_signature (s : Signature) : Says (dStruct signatureFields) ⟨[], [], [], []⟩ s (signatureText s) := by
  obtain ⟨m, r, s, k⟩ := s
  exact says_obj (.cons _ rfl (says_field (says_bytes _ _)) (.cons _ rfl (says_field (says_bytes _ _)) (.cons _ rfl (says_field (says_bytes _ _))
    (.cons _ rfl (says_field (says_bytes _ _)) (.nil _)))))

/-- likewise for a signing, whose answer is indented -/
theorem c135_sign_answer (r : KeySign.Response) : clientSign (utf8 (signAnswerIndented r)) = some ⟨r.signatures, statusNumber r.status, r.blame⟩ := by
  obtain ⟨l, s, b⟩ := r
  have h : Says (dStruct gotSignFields) {} ⟨l, statusNumber s, b⟩ (signAnswer ⟨l, s, b⟩) := by
    refine says_obj (.cons (b := ⟨l, 0, ⟨"", false, []⟩⟩) _ rfl (says_field (d := dList ⟨[], [], [], []⟩ (dStruct signatureFields)) (b := l) ?_)
      (.cons _ rfl (says_field (says_u8 _ (status_small s))) (.cons _ rfl (says_field (says_blame b)) (.nil _))))
    dsimp only
    split
    · rename_i h; subst h; exact ⟨.null, .null, rfl⟩
    · exact says_list fun a _ => says_signature a
  obtain ⟨j, h1, h2⟩ := h
  exact unmarshal_says ⟨j, c135_indent h1, h2⟩

/-! ## the end points -/

theorem serve_gen {G S GR SR E F : Type} {env : Http.Env G S GR SR E F} {r : Http.Req} {q : G} {x : GR × Option E} {buf : Bytes} (hp : r.path = "/keygen")
    (hm : r.method = "POST") (h : env.decodeG r.body = some q) (hk : env.keygen q = some x) (hb : env.marshalG x.1 = some buf) :
    Http.serve env r = (some ⟨200, buf⟩, [.keygen q]) := by
  rw [_root_.Verif.Props.Http.serve_keygen env r hp hm]
  unfold Http.keygenHandler
  rw [if_neg (not_not_intro hm), h]
  dsimp only
  rw [hk]
  dsimp only
  rw [hb]

theorem serve_sign {G S GR SR E F : Type} {env : Http.Env G S GR SR E F} {r : Http.Req} {q : S} {x : SR} {buf : Bytes} (hp : r.path = "/keysign")
    (hm : r.method = "POST") (h : env.decodeS r.body = some q) (hk : env.keysign q = some (x, none)) (hb : env.marshalS x = some buf) :
    Http.serve env r = (some ⟨200, buf⟩, [.keysign q]) := by
  rw [_root_.Verif.Props.Http.serve_keysign env r hp hm]
  unfold Http.keySignHandler
  rw [if_neg (not_not_intro hm), h]
  dsimp only
  rw [hk]
  dsimp only
  rw [hb]

section
variable {E F : Type} (keygen : Keygen.Request → Option (Keygen.Response × Option E)) (keysign : KeySign.Request → Option (KeySign.Response × Option F))
  (lp : Bytes) (metrics : Http.Req → Http.Reply)

/-- From end to end: a client who posts the text of a key generation request makes the server generate a key for exactly that request, once, and reads in the
reply exactly what the server answered. -/
theorem c135_keygen (r : Keygen.Request) (h : -2 ^ 63 ≤ r.blockHeight ∧ r.blockHeight < 2 ^ 63) (resp : Keygen.Response) (e : Option E)
    (hk : keygen r = some (resp, e)) :
    ∃ body, Http.serve (httpEnv keygen keysign lp metrics) ⟨"POST", "/keygen", utf8 (genText r)⟩ = (some ⟨200, body⟩, [.keygen r]) ∧
      clientGen body = some ⟨resp.pubKey, resp.poolAddress, statusNumber resp.status, resp.blame⟩ := by
  refine ⟨_, ?_, c135_gen_answer resp⟩
  have h1 := c135_gen r h []
  rw [List.append_nil] at h1
  have e1 : (httpEnv keygen keysign lp metrics).decodeG = readGen := rfl
  have e2 : (httpEnv keygen keysign lp metrics).keygen = keygen := rfl
  have e3 : (httpEnv keygen keysign lp metrics).marshalG = fun r => some (utf8 (genAnswer r)) := rfl
  exact serve_gen (q := r) (x := (resp, e)) rfl rfl (by rw [e1]; exact h1) (by rw [e2]; exact hk) (by rw [e3])

/-- likewise for signing -/
theorem c135_keysign (r : KeySign.Request) (h : -2 ^ 63 ≤ r.blockHeight ∧ r.blockHeight < 2 ^ 63) (resp : KeySign.Response)
    (hk : keysign r = some (resp, none)) :
    ∃ body, Http.serve (httpEnv keygen keysign lp metrics) ⟨"POST", "/keysign", utf8 (signText r)⟩ = (some ⟨200, body⟩, [.keysign r]) ∧
      clientSign body = some ⟨resp.signatures, statusNumber resp.status, resp.blame⟩ := by
  refine ⟨_, ?_, c135_sign_answer resp⟩
  have h1 := c135_sign r h []
  rw [List.append_nil] at h1
  have e1 : (httpEnv keygen keysign lp metrics).decodeS = readSign := rfl
  have e2 : (httpEnv keygen keysign lp metrics).keysign = keysign := rfl
  have e3 : (httpEnv keygen keysign lp metrics).marshalS = fun r => some (utf8 (signAnswerIndented r)) := rfl
  exact serve_sign (q := r) (x := resp) rfl rfl (by rw [e1]; exact h1) (by rw [e2]; exact hk) (by rw [e3])

/-- A body that is not a request is not always refused: `null`, an object without any of the fields and a list of keys followed by garbage lead to a key
generation, the first two of them without keys. -/
theorem c135_sloppy : readGen (utf8 "null".toList) = some noGen ∧ readGen (utf8 "{\"key\":[\"a\"]} oops".toList) = some noGen ∧
    readSign (utf8 "{}{}".toList) = some noSign ∧ readGen (utf8 "{\"Keys\":[\"a\",null],\"tss_version\":null}]".toList) = some ⟨[['a'], []], 0, []⟩ := by
  have h : ∀ o : Option Keygen.Request, ∀ k b v, (match o with | some q => decide (q.keys = k ∧ q.blockHeight = b ∧ q.version = v) | none => false) = true →
      o = some ⟨k, b, v⟩ := by
    intro o k b v h
    cases o with
    | none => cases h
    | some q =>
      obtain ⟨h1, h2, h3⟩ := of_decide_eq_true h
      subst h1 h2 h3
      rfl
  have h' : ∀ o : Option KeySign.Request, (match o with
      | some q => decide (q.poolPubKey = [] ∧ q.messages = [] ∧ q.signerPubKeys = [] ∧ q.blockHeight = 0 ∧ q.version = [])
      | none => false) = true → o = some noSign := by
    intro o h
    cases o with
    | none => cases h
    | some q =>
      obtain ⟨h1, h2, h3, h4, h5⟩ := of_decide_eq_true h
      obtain ⟨a, b, c, d, e⟩ := q
      cases h1; cases h2; cases h3; cases h4; cases h5
      rfl
  exact ⟨h _ _ _ _ (by decide +kernel), h _ _ _ _ (by decide +kernel), h' _ (by decide +kernel), h _ _ _ _ (by decide +kernel)⟩

/-- The answer calls a blame for a unicast message `is_broadcast`: the flag says the contrary of its name. -/
theorem c135_flag (reason : String) (u : Bool) (ns : List (Blame.Node Str)) :
    ∃ t, blameText ⟨reason, u, ns⟩ = "{\"fail_reason\":".toList ++ quote reason.toList ++ ",\"is_broadcast\":".toList ++ boolText u ++ t := by
  cases ns with
  | nil => exact ⟨['}'], by simp [blameText, objText, commas, ifNot, quote, escape, List.flatMap]⟩
  | cons n ns => exact ⟨_, by simp [blameText, objText, commas, ifNot, quote, escape, List.flatMap]; rfl⟩

end

/-! ## cases -/

example : String.ofList (signAnswerIndented ⟨[⟨[1], [2], [3], [0]⟩], .success, ⟨"", false, []⟩⟩) =
    "{\n\t\"signatures\": [\n\t\t{\n\t\t\t\"signed_msg\": \"AQ==\",\n\t\t\t\"r\": \"Ag==\",\n\t\t\t\"s\": \"Aw==\",\n\t\t\t\"recovery_id\": \"AA==\"\n\t\t}\n\t],\n\t\"status\": 1,\n\t\"blame\": {\n\t\t\"fail_reason\": \"\",\n\t\t\"is_broadcast\": false\n\t}\n}" := by
  decide +kernel

example : String.ofList (genText ⟨["ab".toList], 10, "0.14.0".toList⟩) = "{\"keys\":[\"ab\"],\"block_height\":10,\"tss_version\":\"0.14.0\"}" := by decide +kernel

example : String.ofList (genAnswer ⟨[], [], .fail, ⟨"r", true, [⟨"k".toList, [], []⟩, ⟨"l".toList, [1], [2]⟩]⟩⟩) =
    "{\"pub_key\":\"\",\"pool_address\":\"\",\"status\":2,\"blame\":{\"fail_reason\":\"r\",\"is_broadcast\":true,\"blame_peers\":[{\"pubkey\":\"k\",\"data\":null},{\"pubkey\":\"l\",\"data\":\"AQ==\",\"signature\":\"Ag==\"}]}}" := by
  decide +kernel

/-- an end to end case: the server answers with the first key it was given, the client reads it, with quotes and line ends in it -/
example : ∃ body, Http.serve (httpEnv (E := Unit) (F := Unit) (fun q => some (⟨q.keys.headD [], q.version, .success, ⟨"", false, []⟩⟩, none)) (fun _ => none) []
      fun _ => ⟨200, []⟩) ⟨"POST", "/keygen", utf8 (genText ⟨["a\"\n".toList, "é".toList], -5, "1".toList⟩)⟩ =
        (some ⟨200, body⟩, [.keygen ⟨["a\"\n".toList, "é".toList], -5, "1".toList⟩]) ∧
      clientGen body = some ⟨"a\"\n".toList, "1".toList, 1, ⟨"", false, []⟩⟩ :=
  c135_keygen _ _ _ _ ⟨["a\"\n".toList, "é".toList], -5, "1".toList⟩ ⟨by decide, by decide⟩ ⟨_, _, .success, _⟩ none rfl

example : ∃ body, Http.serve (httpEnv (E := Unit) (F := Unit) (fun _ => none) (fun q => some (⟨[⟨[1], [2], [3], [q.messages.length.toUInt8]⟩], .success, ⟨"", false, []⟩⟩, none))
      [] fun _ => ⟨200, []⟩) ⟨"POST", "/keysign", utf8 (signText ⟨"p".toList, ["bQ==".toList], [], 7, "1".toList⟩)⟩ =
        (some ⟨200, body⟩, [.keysign ⟨"p".toList, ["bQ==".toList], [], 7, "1".toList⟩]) ∧
      clientSign body = some ⟨[⟨[1], [2], [3], [1]⟩], 1, ⟨"", false, []⟩⟩ :=
  c135_keysign _ _ _ _ ⟨"p".toList, ["bQ==".toList], [], 7, "1".toList⟩ ⟨by decide, by decide⟩ ⟨_, .success, _⟩ rfl

end Verif.Props.JsonHttp
