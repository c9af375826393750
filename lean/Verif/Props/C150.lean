import Verif.Model.ToolFlags
import Verif.Spec.ToolLine
import Verif.Props.C138
import Verif.Props.C144
import Verif.Props.C148

/-!
# C150: the command lines of the recovery tool and of the benchmark tools
-/
set_option linter.unusedSectionVars false
namespace Verif.Props.ToolLine
open Verif.Go Verif.ToolFlags Verif.Spec.ToolLine
open Verif.Flags (token named splitValue Token)
open Verif.FlagText (parseInt)
open Verif.Recovery (Args Lib Rand Out EncryptedKey)
open Verif.Props.CommandLine (of_token ends_iff token_dashed split_no split_eq body)

/-! ## the parser -/

theorem dashes_eq (two : Bool) (s : Str) : Spec.CommandLine.dashed two s = dashes two s := by cases two <;> rfl

/-- names that can be written as flags -/
def Name (n : Str) : Prop := ∃ c s, n = c :: s ∧ c ≠ '-' ∧ c ≠ '=' ∧ '=' ∉ s

theorem token_name (two : Bool) {n : Str} (h : Name n) : token (dashes two n) = .flag n none := by
  obtain ⟨c, s, rfl, h1, h2, h3⟩ := h
  rw [← dashes_eq, token_dashed two h1]
  simp [named, h1, h2, split_no h3]

theorem token_set (two : Bool) {n : Str} (h : Name n) (v : Str) : token (dashes two (n ++ '=' :: v)) = .flag n (some v) := by
  obtain ⟨c, s, rfl, h1, h2, h3⟩ := h
  rw [← dashes_eq, List.cons_append, token_dashed two h1]
  simp [named, h1, h2, split_eq h3]

theorem token_plain {w : Str} (h : Plain w) : token w = .stop := by
  match w with
  | [] => rfl
  | [_] => rfl
  | d :: c :: s =>
    have hd : d ≠ '-' := by
      rcases h with h | h
      · simp at h
      · simpa using h
    simp [token, hd]

theorem plain_token {w : Str} (h : token w = .stop) : Plain w := by
  match w with
  | [] => exact Or.inl (by simp)
  | [_] => exact Or.inl (by simp)
  | d :: c :: s =>
    right
    rintro hd
    have hd : d = '-' := by simpa using hd
    subst hd
    have hn : ∀ t, named t ≠ .stop := by
      intro t
      match t with
      | [] => simp [named]
      | c :: cs => simp only [named]; split <;> simp
    simp only [token, ne_eq, not_true_eq_false, if_false] at h
    split at h
    · exact hn _ h
    · split at h
      · cases h
      · exact hn _ h

theorem token_end {w : Str} : token w = .terminator ↔ w = "--".toList := by
  have hn : ∀ t, named t ≠ .terminator := by
    intro t
    match t with
    | [] => simp [named]
    | c :: cs => simp only [named]; split <;> simp
  constructor
  · intro h
    match w with
    | [] => cases h
    | [_] => cases h
    | d :: c :: s =>
      simp only [token] at h
      split at h
      · cases h
      · rename_i hd
        split at h
        · exact absurd h (hn _)
        · rename_i hc
          split at h
          · rename_i hs
            rw [not_not.1 hd, not_not.1 hc, hs]
            rfl
          · exact absurd h (hn _)
  · rintro rfl
    rfl

/-- a setting that the parser takes -/
def Taken (fs : FlagSet) (s : Setting) : Prop := ∃ k, kindOf fs s.name = some k ∧ k.accepts s.value = true

/-- what is kept of a setting -/
def kept (s : Setting) : Str × Str := (s.name, s.value)

theorem parse_setting (fs : FlagSet) (s : Setting) (hn : Name s.name) (more : List Str) (given : List (Str × Str)) :
    parse fs (s.words ++ more) given =
      match kindOf fs s.name with
      | none => none
      | some k => if k.accepts s.value then parse fs more (given ++ [kept s]) else none := by
  unfold Setting.words
  split
  · simp only [List.cons_append, List.nil_append, parse, token_name s.two hn]
    rfl
  · simp only [List.cons_append, List.nil_append, parse, token_set s.two hn]
    rfl

theorem parse_settings (fs : FlagSet) (hfs : ∀ n k, kindOf fs n = some k → Name n) (l : List Setting) (hl : ∀ s ∈ l, Taken fs s) (more : List Str)
    (given : List (Str × Str)) : parse fs (l.flatMap Setting.words ++ more) given = parse fs more (given ++ l.map kept) := by
  induction l generalizing given with
  | nil => simp
  | cons s l ih =>
    obtain ⟨k, hk, ha⟩ := hl s (by simp)
    rw [List.flatMap_cons, List.append_assoc, parse_setting fs s (hfs _ _ hk), hk]
    simp only [ha, if_true]
    rw [ih (fun x hx => hl x (by simp [hx]))]
    simp

theorem parse_rest (fs : FlagSet) {rest left : List Str} (h : Leaves rest left) (given : List (Str × Str)) : parse fs rest given = some (given, left) := by
  rcases h with ⟨rfl, rfl⟩ | ⟨w, more, rfl, hw, rfl⟩ | rfl
  · rfl
  · simp [parse, token_plain hw]
  · have h : token ("--".toList) = .terminator := token_end.2 rfl
    rw [parse.eq_def]
    simp only [h]

theorem of_parse (fs : FlagSet) (n : Nat) : ∀ (words : List Str), words.length ≤ n → ∀ given given' left, parse fs words given = some (given', left) →
    ∃ (l : List Setting) (rest : List Str), words = l.flatMap Setting.words ++ rest ∧ (∀ s ∈ l, Taken fs s) ∧ Leaves rest left ∧ given' = given ++ l.map kept := by
  induction n with
  | zero =>
    intro words hn given given' left h
    have : words = [] := List.length_eq_zero_iff.1 (by omega)
    subst this
    simp only [parse, Option.some.injEq, Prod.mk.injEq] at h
    obtain ⟨rfl, rfl⟩ := h
    exact ⟨[], [], rfl, by simp, Or.inl ⟨rfl, rfl⟩, by simp⟩
  | succ n ih =>
    intro words hn given given' left h
    match words with
    | [] =>
      simp only [parse, Option.some.injEq, Prod.mk.injEq] at h
      obtain ⟨rfl, rfl⟩ := h
      exact ⟨[], [], rfl, by simp, Or.inl ⟨rfl, rfl⟩, by simp⟩
    | w :: words =>
      have go : ∀ (s : Setting) (more : List Str), w :: words = s.words ++ more → Taken fs s → parse fs more (given ++ [kept s]) = some (given', left) →
          ∃ (l : List Setting) (rest : List Str), w :: words = l.flatMap Setting.words ++ rest ∧ (∀ s ∈ l, Taken fs s) ∧ Leaves rest left ∧ given' = given ++ l.map kept := by
        intro s more hw ht hp
        have hlen : more.length ≤ n := by
          have h1 := congrArg List.length hw
          have h2 : 1 ≤ s.words.length := by unfold Setting.words; split <;> simp
          simp only [List.length_cons, List.length_append] at h1 hn
          omega
        obtain ⟨l, rest, h1, h2, h3, h4⟩ := ih more hlen _ given' left hp
        refine ⟨s :: l, rest, ?_, ?_, h3, by simpa using h4⟩
        · rw [hw, h1]; simp
        · intro x hx
          rcases List.mem_cons.1 hx with rfl | hx
          · exact ht
          · exact h2 x hx
      rw [parse.eq_def] at h
      simp only at h
      split at h
      · rename_i ht
        simp only [Option.some.injEq, Prod.mk.injEq] at h
        obtain ⟨rfl, rfl⟩ := h
        exact ⟨[], w :: words, rfl, by simp, Or.inr (Or.inl ⟨w, words, rfl, plain_token ht, rfl⟩), by simp⟩
      · rename_i ht
        simp only [Option.some.injEq, Prod.mk.injEq] at h
        obtain ⟨rfl, rfl⟩ := h
        exact ⟨[], w :: words, rfl, by simp, Or.inr (Or.inr (by rw [token_end.1 ht])), by simp⟩
      · cases h
      · rename_i m v ht
        obtain ⟨two, hs⟩ := of_token ht
        rw [dashes_eq] at hs
        split at h
        · cases h
        · rename_i k hk
          rcases v with _ | v
          · rcases words with _ | ⟨v, words⟩
            · cases h
            · simp only at h
              split at h
              · rename_i ha
                exact go ⟨two, true, m, v⟩ words (by rw [hs]; simp [Setting.words, body]) ⟨k, hk, ha⟩ h
              · cases h
          · simp only at h
            split at h
            · rename_i ha
              exact go ⟨two, false, m, v⟩ words (by rw [hs]; simp [Setting.words, body]) ⟨k, hk, ha⟩ h
            · cases h

theorem parse_iff (fs : FlagSet) (hfs : ∀ n k, kindOf fs n = some k → Name n) (words : List Str) (given : List (Str × Str)) (left : List Str) :
    parse fs words [] = some (given, left) ↔
    ∃ (l : List Setting) (rest : List Str), words = l.flatMap Setting.words ++ rest ∧ (∀ s ∈ l, Taken fs s) ∧ Leaves rest left ∧ given = l.map kept := by
  constructor
  · intro h
    simpa using of_parse fs words.length words le_rfl [] given left h
  · rintro ⟨l, rest, rfl, h1, h2, rfl⟩
    rw [parse_settings fs hfs l h1, parse_rest fs h2]
    simp

/-! ## values -/

theorem accepts_number (v : Str) : Kind.accepts .number v = true ↔ ∃ i, SaysNumber v i := by
  unfold Kind.accepts SaysNumber
  rw [Option.isSome_iff_exists]
  exact exists_congr fun i => FlagText.c144_number v i

theorem value_snoc (g : List (Str × Str)) (m v n : Str) : value (g ++ [(m, v)]) n = if m = n then some v else value g n := by
  by_cases h : m = n <;> simp [value, List.filter_append, h]

theorem value_none (l : List Setting) (n : String) : value (l.map kept) n.toList = none ↔ Absent l n := by
  simp [value, Absent, kept]

theorem value_some (l : List Setting) (n : String) (v : Str) : value (l.map kept) n.toList = some v ↔ Last l n v := by
  induction l using List.reverseRecOn with
  | nil =>
    constructor
    · intro h; cases h
    · rintro ⟨b, s, a, h, -⟩; simp at h
  | append_singleton l x ih =>
    rw [List.map_append, List.map_singleton]
    show value (l.map kept ++ [(x.name, x.value)]) _ = _ ↔ _
    rw [value_snoc]
    split
    · rename_i hx
      constructor
      · intro h
        exact ⟨l, x, [], rfl, hx, by simpa using h, by simp⟩
      · rintro ⟨b, s, a, h, h1, h2, h3⟩
        rcases List.eq_nil_or_concat a with rfl | ⟨a, y, rfl⟩
        · have := (List.append_inj' h rfl).2
          simp only [List.cons.injEq, and_true] at this
          rw [this, h2]
        · exfalso
          rw [List.concat_eq_append, ← List.cons_append, ← List.append_assoc] at h
          have := (List.append_inj' h rfl).2
          simp only [List.cons.injEq, and_true] at this
          exact h3 y (by simp) (this ▸ hx)
    · rename_i hx
      rw [ih]
      constructor
      · rintro ⟨b, s, a, h, h1, h2, h3⟩
        refine ⟨b, s, a ++ [x], by rw [h]; simp, h1, h2, ?_⟩
        intro y hy
        rcases List.mem_append.1 hy with hy | hy
        · exact h3 y hy
        · rw [List.mem_singleton.1 hy]; exact hx
      · rintro ⟨b, s, a, h, h1, h2, h3⟩
        rcases List.eq_nil_or_concat a with rfl | ⟨a, y, rfl⟩
        · exfalso
          have := (List.append_inj' h rfl).2
          simp only [List.cons.injEq, and_true] at this
          exact hx (this ▸ h1)
        · rw [List.concat_eq_append, ← List.cons_append, ← List.append_assoc] at h
          exact ⟨b, s, a, (List.append_inj' h rfl).1, h1, h2, fun z hz => h3 z (by simp [hz])⟩

theorem textFlag_iff (l : List Setting) (n : String) (v : Str) : textFlag (l.map kept) n.toList = v ↔ Text l n v := by
  unfold textFlag Text
  rw [← value_some, ← value_none]
  cases value (l.map kept) n.toList <;> simp [eq_comm]

theorem last_unique {l : List Setting} {n : String} {v w : Str} (h : Last l n v) (h' : Last l n w) : v = w := by
  rw [← value_some] at h h'
  rw [h] at h'
  exact Option.some.inj h'

theorem last_absent {l : List Setting} {n : String} {v : Str} (h : Last l n v) (h' : Absent l n) : False := by
  rw [← value_some] at h
  rw [← value_none] at h'
  rw [h] at h'
  cases h'

/-- a number that was taken -/
theorem intFlag_iff (l : List Setting) (n : String) (hl : ∀ v, Last l n v → ∃ i, SaysNumber v i) (d i : Int) :
    intFlag (l.map kept) n.toList d = i ↔ Number l n d i := by
  unfold intFlag Number
  rcases h : value (l.map kept) n.toList with _ | v
  · have ha := (value_none l n).1 h
    simp only [Option.bind_none, Option.getD_none, ha, true_and]
    constructor
    · rintro rfl; exact Or.inr rfl
    · rintro (⟨v, hv, -⟩ | rfl)
      · exact (last_absent hv ha).elim
      · rfl
  · have hv := (value_some l n v).1 h
    obtain ⟨j, hj⟩ := hl v hv
    have hp : parseInt v = some j := (FlagText.c144_number v j).2 hj
    simp only [Option.bind_some, hp, Option.getD_some]
    constructor
    · rintro rfl; exact Or.inl ⟨v, hv, hj⟩
    · rintro (⟨w, hw, hi⟩ | ⟨ha, -⟩)
      · rw [← last_unique hv hw] at hi
        have := (FlagText.c144_number v i).2 hi
        rw [hp] at this
        exact Option.some.inj this
      · exact (last_absent hv ha).elim

/-! ## the flags of the tools -/

theorem kind_cons (n m : Str) (k : Kind) (fs : FlagSet) : kindOf ((m, k) :: fs) n = if m = n then some k else kindOf fs n := by
  by_cases h : m = n <;> simp [kindOf, h]

theorem kind_nil (n : Str) : kindOf [] n = none := rfl

theorem name_lit (s : Str) (h : s.head?.any (fun c => c ≠ '-' ∧ c ≠ '=') = true) (h' : '=' ∉ s) : Name s := by
  match s with
  | [] => simp at h
  | c :: s =>
    simp at h h'
    exact ⟨c, s, rfl, h.1, h.2, h'.2⟩

theorem recovery_names (n : Str) (k : Kind) (h : kindOf recoveryFlags n = some k) : Name n := by
  rw [recoveryFlags, kind_cons, kind_cons, kind_cons, kind_nil] at h
  split at h
  · rename_i e; exact e ▸ name_lit _ (by decide) (by decide)
  split at h
  · rename_i e; exact e ▸ name_lit _ (by decide) (by decide)
  split at h
  · rename_i e; exact e ▸ name_lit _ (by decide) (by decide)
  cases h

theorem recovery_taken (s : Setting) : Taken recoveryFlags s ↔ s.Fine ["n"] ["export", "password"] := by
  have ht : (∃ n ∈ ["export", "password"], s.name = String.toList n) ↔ s.name = "export".toList ∨ s.name = "password".toList := by
    constructor
    · rintro ⟨n, hn, e⟩
      rcases List.mem_cons.1 hn with rfl | hn
      · exact Or.inl e
      · rw [List.mem_singleton.1 hn] at e; exact Or.inr e
    · rintro (e | e)
      · exact ⟨_, List.mem_cons_self, e⟩
      · exact ⟨_, List.mem_cons_of_mem _ (List.mem_singleton.2 rfl), e⟩
  have hn : (∃ n ∈ ["n"], s.name = String.toList n) ↔ s.name = "n".toList := by
    constructor
    · rintro ⟨n, hn, e⟩
      rw [List.mem_singleton.1 hn] at e; exact e
    · exact fun e => ⟨_, List.mem_singleton.2 rfl, e⟩
  unfold Taken Setting.Fine
  rw [ht, hn, recoveryFlags, kind_cons, kind_cons, kind_cons, kind_nil]
  generalize hN : "n".toList = N
  generalize hE : "export".toList = E
  generalize hP : "password".toList = P
  have d1 : N ≠ E := by rw [← hN, ← hE]; decide
  have d2 : N ≠ P := by rw [← hN, ← hP]; decide
  by_cases h1 : s.name = N
  · rw [h1]
    simp only [if_true, Option.some.injEq, exists_eq_left', accepts_number, true_and, d1, d2, or_self, false_or]
  · rw [if_neg (Ne.symm h1)]
    by_cases h2 : s.name = E
    · rw [h2]; simp [Kind.accepts]
    · rw [if_neg (Ne.symm h2)]
      by_cases h3 : s.name = P
      · rw [h3]; simp [Kind.accepts]
      · rw [if_neg (Ne.symm h3)]
        simp only [h1, h2, h3, or_false, false_and, exists_false, reduceCtorEq, false_and]

theorem gen_names (n : Str) (k : Kind) (h : kindOf genFlags n = some k) : Name n := by
  simp only [genFlags, kind_cons, kind_nil] at h
  split at h
  · rename_i e; exact e ▸ name_lit _ (by decide) (by decide)
  split at h
  · rename_i e; exact e ▸ name_lit _ (by decide) (by decide)
  split at h
  · rename_i e; exact e ▸ name_lit _ (by decide) (by decide)
  cases h

theorem gen_taken (s : Setting) : Taken genFlags s ↔ s.Fine ["q", "n", "procs"] [] := by
  unfold Taken Setting.Fine
  simp only [genFlags, kind_cons, kind_nil, List.mem_cons, List.not_mem_nil, or_false, exists_eq_or_imp, exists_eq_left, false_and, exists_false, false_or]
  by_cases h1 : s.name = "q".toList
  · rw [h1]
    simp [accepts_number]
  · rw [if_neg (Ne.symm h1)]
    by_cases h2 : s.name = "n".toList
    · rw [h2]; simp [accepts_number]
    · rw [if_neg (Ne.symm h2)]
      by_cases h3 : s.name = "procs".toList
      · rw [h3]; simp [accepts_number]
      · rw [if_neg (Ne.symm h3)]
        simp only [h1, h2, h3, or_false, false_and, exists_false, reduceCtorEq, false_and]

theorem sign_names (n : Str) (k : Kind) (h : kindOf signFlags n = some k) : Name n := by
  simp only [signFlags, kind_cons, kind_nil] at h
  split at h
  · rename_i e; exact e ▸ name_lit _ (by decide) (by decide)
  split at h
  · rename_i e; exact e ▸ name_lit _ (by decide) (by decide)
  split at h
  · rename_i e; exact e ▸ name_lit _ (by decide) (by decide)
  split at h
  · rename_i e; exact e ▸ name_lit _ (by decide) (by decide)
  cases h

theorem sign_taken (s : Setting) : Taken signFlags s ↔ s.Fine ["q", "n", "r", "procs"] [] := by
  unfold Taken Setting.Fine
  simp only [signFlags, kind_cons, kind_nil, List.mem_cons, List.not_mem_nil, or_false, exists_eq_or_imp, exists_eq_left, false_and, exists_false, false_or]
  by_cases h1 : s.name = "q".toList
  · rw [h1]
    simp [accepts_number]
  · rw [if_neg (Ne.symm h1)]
    by_cases h2 : s.name = "n".toList
    · rw [h2]; simp [accepts_number]
    · rw [if_neg (Ne.symm h2)]
      by_cases h3 : s.name = "r".toList
      · rw [h3]; simp [accepts_number]
      · rw [if_neg (Ne.symm h3)]
        by_cases h4 : s.name = "procs".toList
        · rw [h4]; simp [accepts_number]
        · rw [if_neg (Ne.symm h4)]
          simp only [h1, h2, h3, h4, or_false, false_and, exists_false, reduceCtorEq, false_and]

theorem last_mem {l : List Setting} {n : String} {v : Str} (h : Last l n v) : ∃ s ∈ l, s.name = n.toList ∧ s.value = v := by
  obtain ⟨b, s, a, rfl, h1, h2, -⟩ := h
  exact ⟨s, by simp, h1, h2⟩

theorem fine_number {l : List Setting} {numbers texts : List String} (hl : ∀ s ∈ l, s.Fine numbers texts) (n : String) (hn : n ∉ texts) (v : Str) (h : Last l n v) :
    ∃ i, SaysNumber v i := by
  obtain ⟨s, hs, h1, h2⟩ := last_mem h
  rcases hl s hs with ⟨m, hm, e⟩ | ⟨-, i, hi⟩
  · rw [h1] at e
    exact absurd (String.toList_injective e ▸ hm) hn
  · exact ⟨i, h2 ▸ hi⟩

/-- the parsers of the tools, in terms of the lines -/
theorem line_iff (fs : FlagSet) (numbers texts : List String) (hfs : ∀ n k, kindOf fs n = some k → Name n) (ht : ∀ s, Taken fs s ↔ s.Fine numbers texts)
    (words : List Str) (given : List (Str × Str)) (left : List Str) :
    parse fs words [] = some (given, left) ↔ ∃ l, Line numbers texts words l left ∧ given = l.map kept := by
  rw [parse_iff fs hfs]
  simp only [ht]
  constructor
  · rintro ⟨l, rest, h1, h2, h3, h4⟩; exact ⟨l, ⟨rest, h1, h2, h3⟩, h4⟩
  · rintro ⟨l, ⟨rest, h1, h2, h3⟩, h4⟩; exact ⟨l, rest, h1, h2, h3, h4⟩

theorem line_fine {numbers texts : List String} {words left : List Str} {l : List Setting} (h : Line numbers texts words l left) : ∀ s ∈ l, s.Fine numbers texts := by
  obtain ⟨_, -, h, -⟩ := h
  exact h

/-! ## the recovery tool -/

theorem args_of {words left : List Str} {l : List Setting} (h : Line ["n"] ["export", "password"] words l left) :
    recoveryArgs words = some ⟨(value (l.map kept) "n".toList).bind parseInt, Json.utf8 (textFlag (l.map kept) "export".toList),
      Json.utf8 (textFlag (l.map kept) "password".toList), left⟩ := by
  unfold recoveryArgs
  rw [(line_iff _ _ _ recovery_names recovery_taken words (l.map kept) left).2 ⟨l, h, rfl⟩]

/-- C150, the recovery tool (partial; missing: the flag `-n`, which is read but has no effect, see C59, and what is written behind the first name, see `c150_behind`). It goes on
with a command line exactly if that is a list of settings it knows, with numbers that can be read, followed by names; and then it exports to the file and with the password that were
set last, and reads the named files. -/
theorem c150_reads_partial (words : List Str) (args : Args Str) :
    recoveryArgs words = some args ↔
    ∃ l, Line ["n"] ["export", "password"] words l args.files ∧ (∃ v, Text l "export" v ∧ args.exportPath = Json.utf8 v) ∧
      (∃ v, Text l "password" v ∧ args.password = Json.utf8 v) ∧
      ((∃ v i, Last l "n" v ∧ SaysNumber v i ∧ args.n = some i) ∨ (Absent l "n" ∧ args.n = none)) := by
  have hnum : ∀ l : List Setting, (∀ s ∈ l, s.Fine ["n"] ["export", "password"]) → ∀ o, (value (l.map kept) "n".toList).bind parseInt = o ↔
      ((∃ v i, Last l "n" v ∧ SaysNumber v i ∧ o = some i) ∨ (Absent l "n" ∧ o = none)) := by
    intro l hl o
    rcases h : value (l.map kept) "n".toList with _ | v
    · have ha := (value_none l "n").1 h
      simp only [Option.bind_none, ha, true_and]
      constructor
      · rintro rfl; exact Or.inr rfl
      · rintro (⟨v, i, hv, -⟩ | rfl)
        · exact (last_absent hv ha).elim
        · rfl
    · have hv := (value_some l "n" v).1 h
      obtain ⟨j, hj⟩ := fine_number hl "n" (by decide) v hv
      have hp : parseInt v = some j := (FlagText.c144_number v j).2 hj
      rw [Option.bind_some, hp]
      constructor
      · rintro rfl; exact Or.inl ⟨v, j, hv, hj, rfl⟩
      · rintro (⟨w, i, hw, hi, rfl⟩ | ⟨ha, -⟩)
        · rw [← last_unique hv hw] at hi
          rw [← hp]
          exact (FlagText.c144_number v i).2 hi
        · exact (last_absent hv ha).elim
  constructor
  · intro h
    have h' := h
    unfold recoveryArgs at h'
    rcases hp : parse recoveryFlags words [] with _ | ⟨given, files⟩
    · rw [hp] at h'; cases h'
    · obtain ⟨l, hl, rfl⟩ := (line_iff _ _ _ recovery_names recovery_taken words given files).1 hp
      rw [args_of hl] at h
      cases h
      exact ⟨l, hl, ⟨_, (textFlag_iff l "export" _).1 rfl, rfl⟩, ⟨_, (textFlag_iff l "password" _).1 rfl, rfl⟩, (hnum l (line_fine hl) _).1 rfl⟩
  · rintro ⟨l, hl, ⟨v, hv, he⟩, ⟨w, hw, hp⟩, hn⟩
    rw [args_of hl, (hnum l (line_fine hl) _).2 hn, (textFlag_iff l "export" v).2 hv, (textFlag_iff l "password" w).2 hw, ← he, ← hp]

/-- C150: all other command lines are refused before any file is read. -/
theorem c150_refused (disk : Str → Option Bytes) (lib : Lib) (r : Rand) (words : List Str) :
    recovery disk lib r words = none ↔ ¬ ∃ l left, Line ["n"] ["export", "password"] words l left := by
  unfold recovery
  rw [Option.map_eq_none_iff]
  constructor
  · rintro h ⟨l, left, hl⟩
    rw [args_of hl] at h
    cases h
  · intro h
    rcases ha : recoveryArgs words with _ | args
    · rfl
    · obtain ⟨l, hl, -⟩ := (c150_reads_partial words args).1 ha
      exact absurd ⟨l, _, hl⟩ h

section
open Verif.JsonState Verif.RecoveryFiles Verif.Spec.Recovery Verif.Spec.Secp Verif.Spec.RecoveryFiles Verif.Curve Verif.Secp Polynomial
open Verif.Conversion (secp256k1N)
open Verif.Server (LocalState)
variable (disk : Str → Option Bytes) (lib : Lib) (r : Rand)

/-- **C150**: a command line as documented, with its settings in any order and spelling and the files of three members of a pool of at most four behind them, writes the private key
of the pool, encrypted with the password that was set, into the file that was set. -/
theorem c150_recovers (words : List Str) (l : List Setting) (a b c : Str) (rest : List Str) (hl : Line ["n"] ["export", "password"] words l (a :: b :: c :: rest))
    (path pass : Str) (hpath : Text l "export" path) (hpass : Text l "password" pass) (hp : path ≠ []) (h8 : 8 ≤ (Json.utf8 pass).length)
    (t : Nat) (ht : t ≤ 2) (f : (ZMod secp256k1N)[X]) (hf : Sharing t f) (k : Str) (hk : KeyOf f k)
    (sa sb sc : LocalState SaveData) (ha : disk a = some (Json.utf8 (stateText sa))) (hb : disk b = some (Json.utf8 (stateText sb)))
    (hc : disk c = some (Json.utf8 (stateText sc))) (x y z : ZMod secp256k1N) (hx : Member f sa x) (hy : Member f sb y) (hz : Member f sc z) (hd : [x, y, z].Nodup)
    (hkdf : ∀ p s, (lib.kdf p s).length = 32) (hiv : ∀ iv, r.iv = some iv → iv.length = 16) (hs : r.salt ≠ none) (hi : r.iv ≠ none) (hu : r.uuid ≠ none)
    (w : Wallet) (hw : RecoveryFiles.Serves w lib) :
    ∃ out stored key, recovery disk lib r words = some (.ok out) ∧ out.pk = some k ∧ out.sk = (f.eval 0).val ∧ out.written = some (Json.utf8 path, some stored) ∧
      openFile w (fileBytes (some stored)) (Json.utf8 pass) = some key ∧ Bytes.toNat key = (f.eval 0).val := by
  have hargs := args_of hl
  rw [(textFlag_iff l "export" path).2 hpath, (textFlag_iff l "password" pass).2 hpass] at hargs
  generalize hA : (⟨(value (l.map kept) "n".toList).bind parseInt, Json.utf8 path, Json.utf8 pass, a :: b :: c :: rest⟩ : Args Str) = args at hargs
  have h1 : args.files = a :: b :: c :: rest := by rw [← hA]
  have h2 : args.exportPath = Json.utf8 path := by rw [← hA]
  have h3 : args.password = Json.utf8 pass := by rw [← hA]
  have hne : args.exportPath ≠ [] := by
    rw [h2]
    intro h
    have := congrArg Json.runes h
    rw [JsonTexts.c132_written] at this
    exact hp this
  obtain ⟨out, stored, key, e1, e2, e3, e4, -⟩ := RecoveryFiles.c138_exported disk lib r t ht f hf k hk args a b c rest h1 sa sb sc ha hb hc x y z hx hy hz hd hkdf hiv hs hi
    hu hne (by rw [h3]; exact h8) w hw
  obtain ⟨out', e1', e5, e6, -⟩ := RecoveryFiles.c138_recovers disk lib r t ht f hf k hk args a b c rest h1 sa sb sc ha hb hc x y z hx hy hz hd hkdf hiv
  rw [e1] at e1'
  cases e1'
  refine ⟨out, stored, key, ?_, e5, e6, by rw [← h2]; exact e2, by rw [← h3]; exact e3, e4⟩
  unfold recovery
  rw [hargs, Option.map_some, e1]

/-- C150 is false for what is written behind the first name: it is taken for further files, of which only the first three are used. So settings there have no effect, and neither do
further files. -/
theorem c150_behind (l : List Setting) (hl : ∀ s ∈ l, s.Fine ["n"] ["export", "password"]) (a b c : Str) (ha : Plain a) (more : List Str) :
    recovery disk lib r (l.flatMap Setting.words ++ a :: b :: c :: more) = recovery disk lib r (l.flatMap Setting.words ++ [a, b, c]) := by
  have line : ∀ m, Line ["n"] ["export", "password"] (l.flatMap Setting.words ++ a :: b :: c :: m) l (a :: b :: c :: m) :=
    fun m => ⟨_, rfl, hl, Or.inr (Or.inl ⟨a, _, rfl, ha, rfl⟩)⟩
  unfold recovery
  rw [args_of (line more), args_of (line []), Option.map_some, Option.map_some]
  refine congrArg some ?_
  exact (Recovery.c59_uses_three_partial (getTssSecretFile disk) getTssPubKey lib r ⟨_, _, _, a :: b :: c :: more⟩ ⟨_, _, _, [a, b, c]⟩ rfl (by simp) rfl rfl).symm

/-- C150: so nothing is exported unless the file and the password are both set before the first name, whatever is written behind it. -/
theorem c150_not_exported (l : List Setting) (hl : ∀ s ∈ l, s.Fine ["n"] ["export", "password"]) (h : Absent l "export" ∨ Absent l "password") (a : Str) (ha : Plain a)
    (more : List Str) (out : Out (Option Str)) (ho : recovery disk lib r (l.flatMap Setting.words ++ a :: more) = some (.ok out)) : out.written = none := by
  have line : Line ["n"] ["export", "password"] (l.flatMap Setting.words ++ a :: more) l (a :: more) := ⟨_, rfl, hl, Or.inr (Or.inl ⟨a, _, rfl, ha, rfl⟩)⟩
  unfold recovery at ho
  rw [args_of line, Option.map_some, Option.some.injEq] at ho
  have hw := (Recovery.c83_written_iff _ _ _ _ _ _ ho).1
  by_contra hne
  obtain ⟨h1, h2⟩ := hw.1 hne
  rcases h with h | h
  · rw [(textFlag_iff l "export" []).2 (Or.inr ⟨h, rfl⟩)] at h1
    exact h1 rfl
  · rw [(textFlag_iff l "password" []).2 (Or.inr ⟨h, rfl⟩)] at h2
    exact absurd h2 (by simp [Json.utf8])

end

/-! ## the benchmark tools -/

/-- C150: the key generation tool goes on exactly with a line of settings it knows and the name of a folder which is not there yet, if the quorum is at least two and at most the
number of parties; the last values count, and 2 and 20 if there are none. -/
theorem c150_gen (there : Str → Bool) (words : List Str) (g : GenLine) :
    genLine there words = some g ↔
    ∃ l left, Line ["q", "n", "procs"] [] words l (g.dir :: left) ∧ Number l "q" 2 g.quorum ∧ Number l "n" 20 g.parties ∧ 2 ≤ g.quorum ∧ g.quorum ≤ g.parties ∧
      there g.dir = false := by
  have hargs : ∀ n q : Int, Bench.genArgs n q = true ↔ 2 ≤ q ∧ q ≤ n := by
    intro n q
    simp only [Bench.genArgs, Bool.not_eq_true', Bool.or_eq_false_iff, decide_eq_false_iff_not, not_le, not_lt]
    omega
  constructor
  · intro h
    unfold genLine at h
    rcases hp : parse genFlags words [] with _ | ⟨given, left⟩
    · rw [hp] at h; cases h
    · rw [hp] at h
      obtain ⟨l, hl, rfl⟩ := (line_iff _ _ _ gen_names gen_taken words given left).1 hp
      simp only at h
      split at h
      · rename_i hg
        split at h
        · cases h
        · rename_i dir left
          split at h
          · cases h
          · rename_i ht
            cases h
            obtain ⟨h1, h2⟩ := (hargs _ _).1 hg
            exact ⟨l, left, hl, (intFlag_iff l "q" (fine_number (line_fine hl) "q" (by decide)) 2 _).1 rfl,
              (intFlag_iff l "n" (fine_number (line_fine hl) "n" (by decide)) 20 _).1 rfl, h1, h2, by simpa using ht⟩
      · cases h
  · rintro ⟨l, left, hl, hq, hn, h1, h2, ht⟩
    unfold genLine
    rw [(line_iff _ _ _ gen_names gen_taken words _ _).2 ⟨l, hl, rfl⟩]
    simp only [(intFlag_iff l "q" (fine_number (line_fine hl) "q" (by decide)) 2 _).2 hq, (intFlag_iff l "n" (fine_number (line_fine hl) "n" (by decide)) 20 _).2 hn,
      (hargs _ _).2 ⟨h1, h2⟩, ht, if_true, Bool.false_eq_true, if_false]

/-- C150: the signing tool goes on with the quorums and the number of runs that were set last, 2, 2 and 1 if they were not, and with the folder named first; it refuses a line which
has settings it does not know, unreadable numbers, or no name. -/
theorem c150_sign {M : Type} (path : Str → Storage.Path) (folder : Str → Bool) (d : Storage.Disk) (play : Nat → Int → Bench.Play M) (words : List Str) :
    (∀ l dir left q n runs, Line ["q", "n", "r", "procs"] [] words l (dir :: left) → Number l "q" 2 q → Number l "n" 2 n → Number l "r" 1 runs →
      sign path folder d play words = Bench.signMain q n runs (path dir) (folder dir) d play) ∧
    ((¬ ∃ l dir left, Line ["q", "n", "r", "procs"] [] words l (dir :: left)) → sign path folder d play words = .refused) := by
  constructor
  · intro l dir left q n runs hl hq hn hr
    unfold sign
    rw [(line_iff _ _ _ sign_names sign_taken words _ _).2 ⟨l, hl, rfl⟩]
    simp only [(intFlag_iff l "q" (fine_number (line_fine hl) "q" (by decide)) 2 _).2 hq, (intFlag_iff l "n" (fine_number (line_fine hl) "n" (by decide)) 2 _).2 hn,
      (intFlag_iff l "r" (fine_number (line_fine hl) "r" (by decide)) 1 _).2 hr]
  · intro h
    unfold sign
    rcases hp : parse signFlags words [] with _ | ⟨given, left⟩
    · rfl
    · obtain ⟨l, hl, -⟩ := (line_iff _ _ _ sign_names sign_taken words given left).1 hp
      rcases left with _ | ⟨dir, left⟩
      · rfl
      · exact absurd ⟨l, dir, left, hl⟩ h

/-! ## cases -/

/-- `-export=out --password 12345678 -n 4` -/
def settings : List Setting :=
  [⟨false, false, "export".toList, "out".toList⟩, ⟨true, true, "password".toList, "12345678".toList⟩, ⟨false, true, "n".toList, "4".toList⟩]

theorem four : SaysNumber "4".toList 4 := (FlagText.c144_number _ _).1 (by decide +kernel)

theorem settings_fine : ∀ s ∈ settings, s.Fine ["n"] ["export", "password"] := by
  intro s hs
  simp only [settings, List.mem_cons, List.not_mem_nil, or_false] at hs
  rcases hs with rfl | rfl | rfl
  · exact Or.inl ⟨"export", by simp, rfl⟩
  · exact Or.inl ⟨"password", by simp, rfl⟩
  · exact Or.inr ⟨⟨"n", by simp, rfl⟩, 4, four⟩

/-- the files of three members of a pool with the private key 5 -/
def disk (w : Str) : Option Bytes :=
  if w = ['a'] then some (Json.utf8 (JsonState.stateText (RecoveryFiles.saved 1 7)))
  else if w = ['b'] then some (Json.utf8 (JsonState.stateText (RecoveryFiles.saved 2 9)))
  else if w = ['c'] then some (Json.utf8 (JsonState.stateText (RecoveryFiles.saved 3 11)))
  else none

/-- `tss-recovery -export=out --password 12345678 -n 4 a b c d` writes the key 5 into the file `out` -/
example : ∃ out stored key, recovery disk RecoveryFiles.lib RecoveryFiles.rand
      ["-export=out".toList, "--password".toList, "12345678".toList, "-n".toList, "4".toList, ['a'], ['b'], ['c'], ['d']] = some (.ok out) ∧ out.sk = 5 ∧
    out.written = some (Json.utf8 "out".toList, some stored) ∧
    Spec.RecoveryFiles.openFile RecoveryFiles.wallet (RecoveryFiles.fileBytes (some stored)) (Json.utf8 "12345678".toList) = some key ∧ Bytes.toNat key = 5 := by
  have h5 : ((RecoveryFiles.poly 5 2 0).eval 0).val = 5 := by
    rw [RecoveryFiles.poly_zero]
    exact RecoveryFiles.val_small 5 (by decide +kernel)
  obtain ⟨k, hk⟩ := RecoveryFiles.has_text (RecoveryFiles.poly 5 2 0) (by rw [h5]; decide)
  have hline : Line ["n"] ["export", "password"]
      ["-export=out".toList, "--password".toList, "12345678".toList, "-n".toList, "4".toList, ['a'], ['b'], ['c'], ['d']] settings [['a'], ['b'], ['c'], ['d']] :=
    ⟨[['a'], ['b'], ['c'], ['d']], by decide +kernel, settings_fine, Or.inr (Or.inl ⟨_, _, rfl, Or.inl (by decide), rfl⟩)⟩
  obtain ⟨out, stored, key, h1, -, h3, h4, h5', h6⟩ := c150_recovers disk RecoveryFiles.lib RecoveryFiles.rand _ settings _ _ _ _ hline "out".toList "12345678".toList
    (Or.inl ⟨[], _, _, rfl, rfl, rfl, by decide +kernel⟩) (Or.inl ⟨[⟨false, false, "export".toList, "out".toList⟩], ⟨true, true, "password".toList, "12345678".toList⟩,
      [⟨false, true, "n".toList, "4".toList⟩], rfl, rfl, rfl, by decide +kernel⟩) (by decide) (by decide +kernel) 1 (by decide)
    (RecoveryFiles.poly 5 2 0) (RecoveryFiles.poly_line _ _) k hk _ _ _ rfl rfl rfl _ _ _ (RecoveryFiles.poly_member _ _ _ 1 7 (by norm_num))
    (RecoveryFiles.poly_member _ _ _ 2 9 (by norm_num)) (RecoveryFiles.poly_member _ _ _ 3 11 (by norm_num)) RecoveryFiles.indices
    (fun p s => List.length_replicate) (fun iv h => by cases h; rfl) (by decide) (by decide) (by decide) RecoveryFiles.wallet ⟨rfl, rfl, rfl⟩
  exact ⟨out, stored, key, h1, h3.trans h5, h4, h5', h6.trans h5⟩

/-- the settings behind the files: the tool goes on without them -/
example : recovery disk RecoveryFiles.lib RecoveryFiles.rand [['a'], ['b'], ['c'], "-export=out".toList, "-password=12345678".toList] =
    recovery disk RecoveryFiles.lib RecoveryFiles.rand [['a'], ['b'], ['c']] :=
  c150_behind disk _ _ [] (by simp) _ _ _ (Or.inl (by decide)) _

/-- an unknown flag and a number that cannot be read -/
example : recovery disk RecoveryFiles.lib RecoveryFiles.rand ["-help".toList, ['a']] = none ∧ recovery disk RecoveryFiles.lib RecoveryFiles.rand ["-n".toList, "x".toList, ['a']] = none := by
  constructor
  · rw [show recovery disk RecoveryFiles.lib RecoveryFiles.rand ["-help".toList, ['a']] = (recoveryArgs ["-help".toList, ['a']]).map _ from rfl, Option.map_eq_none_iff]
    exact Option.isNone_iff_eq_none.1 (by decide +kernel)
  · rw [show recovery disk RecoveryFiles.lib RecoveryFiles.rand ["-n".toList, "x".toList, ['a']] = (recoveryArgs ["-n".toList, "x".toList, ['a']]).map _ from rfl, Option.map_eq_none_iff]
    exact Option.isNone_iff_eq_none.1 (by decide +kernel)

/-- `tss-benchgen -q 3 -n=4 data` -/
example : genLine (fun _ => false) ["-q".toList, "3".toList, "-n=4".toList, "data".toList] = some ⟨3, 4, "data".toList⟩ := by decide +kernel

/-- the folder is there already; no folder; a quorum above the number of parties -/
example : genLine (fun _ => true) ["data".toList] = none ∧ genLine (fun _ => false) [] = none ∧ genLine (fun _ => false) ["-q=21".toList, "data".toList] = none := by
  decide +kernel

/-- `tss-benchsign -n 4 data` -/
example (d : Storage.Disk) (play : Nat → Int → Bench.Play Nat) :
    sign (fun w => [String.ofList w]) (fun _ => true) d play ["-n".toList, "4".toList, "data".toList] = Bench.signMain 2 4 1 ["data"] true d play :=
  (c150_sign _ _ d play _).1 [⟨false, true, "n".toList, "4".toList⟩] "data".toList [] 2 4 1
    ⟨["data".toList], by decide +kernel, fun s hs => List.mem_singleton.1 hs ▸ Or.inr ⟨⟨"n", by simp, rfl⟩, 4, four⟩, Or.inr (Or.inl ⟨_, _, rfl, Or.inr (by decide), rfl⟩)⟩
    (Or.inr ⟨by simp [Absent], rfl⟩) (Or.inl ⟨_, ⟨[], _, [], rfl, rfl, rfl, by simp⟩, four⟩) (Or.inr ⟨by simp [Absent], rfl⟩)

end Verif.Props.ToolLine
