import Mathlib.Tactic.Tauto
import Verif.Spec.CommandLine
import Mathlib.Data.List.Induction
import Mathlib.Data.List.TakeWhile
import Mathlib.Tactic.Linarith

set_option linter.unusedSectionVars false
set_option linter.unusedSimpArgs false

/-!
# C124 The command line of the service is honoured
-/
namespace Verif.Props.CommandLine
open Verif.Flags Verif.Spec.CommandLine

variable {A : Type} (env : Env A)

theorem switch_iff (f : Flag) : f.isBool = true ↔ Switch f := by
  cases f <;> simp [Flag.isBool, Switch]

/-! ## single arguments -/

theorem ofName_name (f : Flag) : ofName f.name = some f := by
  cases f <;> decide +kernel

theorem name_of_ofName {n : Str} {f : Flag} (h : ofName n = some f) : n = f.name := by
  have := List.find?_some h
  exact (of_decide_eq_true this).symm

/-- names begin with a letter and have no '=' -/
theorem name_head (f : Flag) : ∃ c s, f.name = c :: s ∧ c ≠ '-' ∧ c ≠ '=' ∧ '=' ∉ s := by
  cases f <;> exact ⟨_, _, rfl, by decide, by decide, by decide⟩

theorem no_eq {s : Str} (h : '=' ∉ s) : ∀ x ∈ s, (decide (x ≠ '=')) = true := by
  intro x hx
  simp only [decide_eq_true_eq]
  rintro rfl; exact h hx

theorem split_no {c : Char} {s : Str} (h : '=' ∉ s) : splitValue (c :: s) = (c :: s, none) := by
  simp only [splitValue]
  rw [List.takeWhile_eq_self_iff.2 (no_eq h), List.dropWhile_eq_nil_iff.2 (no_eq h)]

theorem split_eq {c : Char} {s v : Str} (h : '=' ∉ s) : splitValue (c :: (s ++ '=' :: v)) = (c :: s, some v) := by
  simp only [splitValue]
  rw [List.takeWhile_append_of_pos (no_eq h), List.dropWhile_append_of_pos (no_eq h)]
  simp

theorem token_dashed (two : Bool) {c : Char} (h : c ≠ '-') (s : Str) : token (dashed two (c :: s)) = named (c :: s) := by
  cases two <;> simp [dashed, token, h]

theorem token_bare (two : Bool) (f : Flag) : token (dashed two f.name) = .flag f.name none := by
  obtain ⟨c, s, hn, h1, h2, h3⟩ := name_head f
  rw [hn, token_dashed two h1]
  simp [named, h1, h2, split_no h3]

theorem token_equals (two : Bool) (f : Flag) (v : Str) : token (dashed two (f.name ++ '=' :: v)) = .flag f.name (some v) := by
  obtain ⟨c, s, hn, h1, h2, h3⟩ := name_head f
  rw [hn, List.cons_append, token_dashed two h1]
  simp [named, h1, h2, split_eq h3]

/-- the text after the minus signs of a flag -/
def body (n : Str) : Option Str → Str
  | none => n
  | some v => n ++ '=' :: v

theorem of_named {t n : Str} {v : Option Str} (ht : named t = .flag n v) : t = body n v := by
  match t with
  | [] => simp [named] at ht
  | c :: cs =>
    simp only [named] at ht
    split at ht
    · simp at ht
    · simp only [Token.flag.injEq, splitValue] at ht
      have hd := List.takeWhile_append_dropWhile (p := fun x : Char => decide (x ≠ '=')) (l := cs)
      have hh := List.head?_dropWhile_not (fun x : Char => decide (x ≠ '=')) cs
      revert ht hd hh
      generalize List.takeWhile (fun x : Char => decide (x ≠ '=')) cs = tw
      generalize List.dropWhile (fun x : Char => decide (x ≠ '=')) cs = dw
      intro ht hd hh
      match dw with
      | [] =>
        obtain ⟨rfl, rfl⟩ := ht
        simp_all [body]
      | d :: ds =>
        obtain ⟨rfl, rfl⟩ := ht
        have : d = '=' := by simpa using hh
        subst this
        simp [← hd, body]

/-- what a flag token looks like -/
theorem of_token {s n : Str} {v : Option Str} (h : token s = .flag n v) : ∃ two, s = dashed two (body n v) := by
  match s with
  | [] => simp [token] at h
  | [_] => simp [token] at h
  | d :: c :: s =>
    simp only [token] at h
    split at h
    · simp at h
    · rename_i hd
      have hd : d = '-' := not_not.1 hd
      subst hd
      split at h
      · exact ⟨false, by rw [← of_named h]; rfl⟩
      · rename_i hc
        have hc : c = '-' := not_not.1 hc
        subst hc
        split at h
        · simp at h
        · exact ⟨true, by rw [← of_named h]; rfl⟩

/-- where the settings end -/
theorem ends_iff (s : Str) (more : List Str) : Ends (s :: more) ↔ token s = .stop ∨ token s = .terminator := by
  match s with
  | [] => simp [Ends, token]
  | [_] => simp [Ends, token]
  | d :: c :: s =>
    have e : Ends ((d :: c :: s) :: more) ↔ ((d = '-' ∧ c = '-' ∧ s = []) ∨ d ≠ '-') := by
      simp only [Ends, reduceCtorEq, List.cons.injEq, false_or, List.length_cons, List.head?_cons, ne_eq, Option.some.injEq]
      constructor
      · rintro ⟨_, _, ⟨rfl, -⟩, h | h | h⟩
        · left; simpa using h
        · exact absurd h (by simp)
        · right; simpa using h
      · rintro (⟨rfl, rfl, rfl⟩ | h)
        · exact ⟨_, _, ⟨rfl, rfl⟩, Or.inl rfl⟩
        · exact ⟨_, _, ⟨rfl, rfl⟩, Or.inr (Or.inr (by simpa using h))⟩
    rw [e]
    simp only [token]
    have hn : ∀ t, named t ≠ .stop ∧ named t ≠ .terminator := by
      intro t
      match t with
      | [] => simp [named]
      | c :: cs => simp only [named]; split <;> simp
    by_cases hd : d = '-'
    · by_cases hc : c = '-'
      · by_cases hs : s = []
        · simp [hd, hc, hs]
        · simp [hd, hc, hs, hn]
      · simp [hd, hc, hn]
    · simp [hd]

/-! ## settings -/

theorem spelled_eq (f : Flag) : spelled f = f.name := by cases f <;> rfl

variable {env}

theorem truth_eq (v : Str) : parseBool v = truth v := by
  have h : ∀ s : String, (String.ofList v = s ↔ v = s.toList) := fun s => by
    constructor
    · rintro rfl; simp
    · rintro rfl; simp
  simp only [parseBool, truth, List.mem_cons, List.not_mem_nil, or_false, h]
  congr 1
  · rw [eq_iff_iff]; tauto
  · congr 1
    rw [eq_iff_iff]; tauto

theorem set_none (c : Conf A) (f : Flag) (v : Str) : f.set env c v = none ↔ ¬ Readable env (f, v) := by
  cases f <;> simp [Flag.set, Readable, truth_eq]

theorem last_snoc (l : List (Flag × Str)) (f g : Flag) (v : Str) : last (l ++ [(f, v)]) g = if f = g then some v else last l g := by
  by_cases h : f = g <;> simp [last, List.filter_append, h]

theorem means_set {l : List (Flag × Str)} {c c' : Conf A} (h : Means env l c) {f : Flag} {v : Str} (hs : f.set env c v = some c') :
    Means env (l ++ [(f, v)]) c' := by
  obtain ⟨h1, h2, h3, h4, h5, h6, h7, h8, h9, h10, h11, h12, h13, h14⟩ := h
  cases f <;> simp only [Flag.set, truth_eq, Option.some.injEq, Option.map_eq_some_iff] at hs
  all_goals
    first
    | (obtain ⟨x, hx, rfl⟩ := hs
       constructor <;> simp [last_snoc, List.filter_append, hx, *])
    | (subst hs
       constructor <;> simp [last_snoc, List.filter_append, *])

theorem means_nil : Means env [] defaults := by
  exact ⟨rfl, rfl, rfl, rfl, rfl, rfl, rfl, rfl, rfl, rfl, rfl, rfl, rfl, rfl⟩

theorem means_unique {l : List (Flag × Str)} {c c' : Conf A} (h : Means env l c) (h' : Means env l c') : c = c' := by
  cases c; cases c'
  obtain ⟨h1, h2, h3, h4, h5, h6, h7, h8, h9, h10, h11, h12, h13, h14⟩ := h
  obtain ⟨g1, g2, g3, g4, g5, g6, g7, g8, g9, g10, g11, g12, g13, g14⟩ := h'
  rw [Conf.mk.injEq]
  exact ⟨h1.trans g1.symm, h2.trans g2.symm, h3.trans g3.symm, h4.trans g4.symm, h5.trans g5.symm, h6.trans g6.symm, h7.trans g7.symm,
    h8.trans g8.symm, h9.trans g9.symm, h10.trans g10.symm, h11.trans g11.symm, h12.trans g12.symm, h13.trans g13.symm, h14.trans g14.symm⟩

/-- one setting -/
theorem parse_written (w : Written) (hw : w.Allowed) (args : List Str) (c : Conf A) :
    parse env (w.args ++ args) c = (w.says.1.set env c w.says.2).bind (parse env args) := by
  match w with
  | .bare two f =>
    have hb : f.isBool = true := (switch_iff f).2 hw
    simp only [Written.args, spelled_eq, List.singleton_append, parse, token_bare, ofName_name, hb, if_true, Written.says, Option.getD_none]
    cases f.set env c "true".toList <;> rfl
  | .equals two f v =>
    simp only [Written.args, spelled_eq, List.singleton_append, parse, token_equals, ofName_name, Written.says, Option.getD_some]
    split <;> cases f.set env c v <;> rfl
  | .apart two f v =>
    have hb : f.isBool = false := by
      have := (switch_iff f).not.2 hw
      simpa using this
    simp only [Written.args, spelled_eq, List.cons_append, List.nil_append, parse, token_bare, ofName_name, hb, Bool.false_eq_true, if_false, Written.says]
    cases f.set env c v <;> rfl

theorem parse_ends {rest : List Str} (h : Ends rest) (c : Conf A) : ∃ left, parse env rest c = some (c, left) := by
  match rest with
  | [] => exact ⟨[], rfl⟩
  | s :: more =>
    rcases (ends_iff s more).1 h with h | h <;> simp [parse, h]

theorem parse_all (l : List Written) (hl : ∀ w ∈ l, w.Allowed) (rest : List Str) (before : List (Flag × Str)) (c : Conf A)
    (hm : Means env before c) (hr : ∀ w ∈ l, Readable env w.says) :
    ∃ c', parse env (l.flatMap Written.args ++ rest) c = parse env rest c' ∧ Means env (before ++ l.map Written.says) c' := by
  induction l generalizing before c with
  | nil => exact ⟨c, rfl, by simpa using hm⟩
  | cons w l ih =>
    have h1 := parse_written (env := env) w (hl w (by simp)) (l.flatMap Written.args ++ rest) c
    rcases hs : w.says.1.set env c w.says.2 with _ | c1
    · exact absurd (hr w (by simp)) ((set_none c _ _).1 hs)
    · obtain ⟨c', h2, h3⟩ := ih (fun w hw => hl w (by simp [hw])) (before ++ [w.says]) c1 (means_set hm hs) (fun w hw => hr w (by simp [hw]))
      refine ⟨c', ?_, by simpa using h3⟩
      rw [List.flatMap_cons, List.append_assoc, h1, hs]
      exact h2

/-- the reading of a command line that is accepted -/
theorem of_parse (n : Nat) : ∀ (args : List Str), args.length ≤ n → ∀ (before : List (Flag × Str)) (c : Conf A), Means env before c →
    ∀ c' left, parse env args c = some (c', left) →
    ∃ (l : List Written) (rest : List Str), args = l.flatMap Written.args ++ rest ∧ (∀ w ∈ l, w.Allowed ∧ Readable env w.says) ∧ Ends rest ∧
      Means env (before ++ l.map Written.says) c' := by
  induction n with
  | zero =>
    intro args hn before c hm c' left h
    have : args = [] := List.length_eq_zero_iff.1 (by omega)
    subst this
    simp only [parse, Option.some.injEq, Prod.mk.injEq] at h
    obtain ⟨rfl, -⟩ := h
    exact ⟨[], [], rfl, by simp, Or.inl rfl, by simpa using hm⟩
  | succ n ih =>
    intro args hn before c hm c' left h
    match args with
    | [] =>
      simp only [parse, Option.some.injEq, Prod.mk.injEq] at h
      obtain ⟨rfl, -⟩ := h
      exact ⟨[], [], rfl, by simp, Or.inl rfl, by simpa using hm⟩
    | s :: args =>
      have stop : (token s = .stop ∨ token s = .terminator) → c = c' →
          ∃ (l : List Written) (rest : List Str), s :: args = l.flatMap Written.args ++ rest ∧ (∀ w ∈ l, w.Allowed ∧ Readable env w.says) ∧
            Ends rest ∧ Means env (before ++ l.map Written.says) c' := by
        rintro ht rfl
        exact ⟨[], s :: args, rfl, by simp, (ends_iff s args).2 ht, by simpa using hm⟩
      -- a setting `w` at the beginning
      have go : ∀ (w : Written) (more : List Str), s :: args = w.args ++ more → w.Allowed → ∀ c1, w.says.1.set env c w.says.2 = some c1 →
          parse env more c1 = some (c', left) →
          ∃ (l : List Written) (rest : List Str), s :: args = l.flatMap Written.args ++ rest ∧ (∀ w ∈ l, w.Allowed ∧ Readable env w.says) ∧
            Ends rest ∧ Means env (before ++ l.map Written.says) c' := by
        intro w more hw ha c1 hs hp
        have hlen : more.length ≤ n := by
          have h1 := congrArg List.length hw
          have h2 : 1 ≤ w.args.length := by cases w <;> simp [Written.args]
          simp only [List.length_cons, List.length_append] at h1 hn
          omega
        obtain ⟨l, rest, h1, h2, h3, h4⟩ := ih more hlen (before ++ [w.says]) c1 (means_set hm hs) c' left hp
        refine ⟨w :: l, rest, ?_, ?_, h3, by simpa using h4⟩
        · rw [hw, h1]; simp
        · intro x hx
          rcases List.mem_cons.1 hx with rfl | hx
          · refine ⟨ha, ?_⟩
            by_contra hne
            have := (set_none c x.says.1 x.says.2).2 hne
            rw [this] at hs
            cases hs
          · exact h2 x hx
      rw [parse] at h
      split at h
      · rename_i ht
        simp only [Option.some.injEq, Prod.mk.injEq] at h
        exact stop (Or.inl ht) h.1
      · rename_i ht
        simp only [Option.some.injEq, Prod.mk.injEq] at h
        exact stop (Or.inr ht) h.1
      · cases h
      · rename_i m v ht
        obtain ⟨two, hs⟩ := of_token ht
        split at h
        · cases h
        · rename_i f hf
          have hm' := name_of_ofName hf
          subst hm'
          split at h
          · rename_i hb
            split at h
            · cases h
            · rename_i c1 hset
              rcases v with _ | v
              · exact go (.bare two f) args (by rw [hs]; rfl) ((switch_iff f).1 hb) c1 hset h
              · exact go (.equals two f v) args (by rw [hs]; rfl) trivial c1 hset h
          · rename_i hb
            rcases v with _ | v
            · rcases args with _ | ⟨v, args⟩
              · cases h
              · simp only at h
                split at h
                · cases h
                · rename_i c1 hset
                  exact go (.apart two f v) args (by rw [hs]; rfl) (fun hsw => hb ((switch_iff f).2 hsw)) c1 hset h
            · simp only at h
              split at h
              · cases h
              · rename_i c1 hset
                exact go (.equals two f v) args (by rw [hs]; rfl) trivial c1 hset h

/-! ## the theorems -/

/-- C124: a command line is accepted with the settings `c` exactly if it is a list of well-written settings with readable values, up to the first
argument that is no flag, and `c` is what they mean: the last value of each flag, all peers in their order, the defaults for the rest. -/
theorem c124_reads_partial (args : List Str) (c : Conf A) :
    parseFlags env args = some c ↔
    ∃ (l : List Written) (rest : List Str), args = l.flatMap Written.args ++ rest ∧ (∀ w ∈ l, w.Allowed ∧ Readable env w.says) ∧ Ends rest ∧
      Means env (l.map Written.says) c := by
  constructor
  · intro h
    unfold parseFlags at h
    rcases hp : parse env args defaults with _ | ⟨c', left⟩
    · rw [hp] at h; cases h
    · rw [hp] at h
      simp only [Option.map_some, Option.some.injEq] at h
      subst h
      simpa using of_parse args.length args le_rfl [] defaults means_nil c' left hp
  · rintro ⟨l, rest, rfl, hl, he, hm⟩
    obtain ⟨c', h1, h2⟩ := parse_all (env := env) l (fun w hw => (hl w hw).1) rest [] defaults means_nil (fun w hw => (hl w hw).2)
    obtain ⟨left, h3⟩ := parse_ends (env := env) he c'
    have : c' = c := means_unique (by simpa using h2) hm
    subst this
    unfold parseFlags
    rw [h1, h3]
    rfl

/-- C124: a command line that consists of settings only is honoured completely, whatever their order and spelling. -/
theorem c124_honoured (l : List Written) (hl : ∀ w ∈ l, w.Allowed ∧ Readable env w.says) :
    ∃ c, parseFlags env (l.flatMap Written.args) = some c ∧ Means env (l.map Written.says) c := by
  obtain ⟨c, h1, h2⟩ := parse_all (env := env) l (fun w hw => (hl w hw).1) [] [] defaults means_nil (fun w hw => (hl w hw).2)
  have h2 : Means env (l.map Written.says) c := by simpa using h2
  exact ⟨c, (c124_reads_partial _ c).2 ⟨l, [], by simp, hl, Or.inl rfl, h2⟩, h2⟩

/-- C124: the order of different flags does not matter, nor does the way they are written. -/
theorem c124_order (l l' : List Written) (hl : ∀ w ∈ l, w.Allowed ∧ Readable env w.says) (hl' : ∀ w ∈ l', w.Allowed ∧ Readable env w.says)
    (hs : ∀ f, (l.map Written.says).filter (fun x => x.1 = f) = (l'.map Written.says).filter (fun x => x.1 = f)) :
    parseFlags env (l.flatMap Written.args) = parseFlags env (l'.flatMap Written.args) := by
  obtain ⟨c, h1, h2⟩ := c124_honoured (env := env) l hl
  obtain ⟨c', h1', h2'⟩ := c124_honoured (env := env) l' hl'
  have hlast : ∀ f, last (l.map Written.says) f = last (l'.map Written.says) f := fun f => by unfold last; rw [hs f]
  have : Means env (l.map Written.says) c' := by
    obtain ⟨g1, g2, g3, g4, g5, g6, g7, g8, g9, g10, g11, g12, g13, g14⟩ := h2'
    constructor <;> first | assumption | (simp only [hlast]; assumption) | (rw [hs]; assumption)
  rw [h1, h1', means_unique h2 this]

/-- C124: a command line is refused when a value cannot be read, when a flag is unknown, or when the value of the last flag is missing; what is
written behind does not matter. -/
theorem c124_refused (l : List Written) (hl : ∀ w ∈ l, w.Allowed ∧ Readable env w.says) :
    (∀ (w : Written) (more : List Str), w.Allowed → ¬ Readable env w.says → parseFlags env (l.flatMap Written.args ++ w.args ++ more) = none) ∧
    (∀ (two : Bool) (n : Str) (more : List Str), n ≠ [] → n.head? ≠ some '-' → n.head? ≠ some '=' → '=' ∉ n → (∀ f : Flag, n ≠ spelled f) →
      parseFlags env (l.flatMap Written.args ++ dashed two n :: more) = none) ∧
    (∀ (two : Bool) (f : Flag), ¬ Switch f → parseFlags env (l.flatMap Written.args ++ [dashed two (spelled f)]) = none) := by
  refine ⟨?_, ?_, ?_⟩
  · intro w more hw hn
    obtain ⟨c, h1, -⟩ := parse_all (env := env) l (fun w hw => (hl w hw).1) (w.args ++ more) [] defaults means_nil (fun w hw => (hl w hw).2)
    unfold parseFlags
    rw [List.append_assoc, h1, parse_written w hw, (set_none c w.says.1 w.says.2).2 hn]
    rfl
  · intro two n more h0 hd he hn hf
    obtain ⟨c, h1, -⟩ := parse_all (env := env) l (fun w hw => (hl w hw).1) (dashed two n :: more) [] defaults means_nil (fun w hw => (hl w hw).2)
    match n with
    | [] => exact absurd rfl h0
    | x :: xs =>
      have hx : x ≠ '-' := by simpa using hd
      have hx' : x ≠ '=' := by simpa using he
      have ht : token (dashed two (x :: xs)) = .flag (x :: xs) none := by
        rw [token_dashed two hx]
        simp [named, hx, hx', split_no (fun h => hn (List.mem_cons_of_mem _ h))]
      have ho : ofName (x :: xs) = none := by
        unfold ofName
        rw [List.find?_eq_none]
        intro f _
        simpa using fun h => hf f (h.symm.trans (spelled_eq f).symm)
      unfold parseFlags
      rw [h1]
      simp [parse, ht, ho]
  · intro two f hf
    rw [spelled_eq]
    obtain ⟨c, h1, -⟩ := parse_all (env := env) l (fun w hw => (hl w hw).1) [dashed two f.name] [] defaults means_nil (fun w hw => (hl w hw).2)
    have hb : f.isBool = false := by
      have := (switch_iff f).not.2 hf
      simpa using this
    unfold parseFlags
    rw [h1]
    simp [parse, token_bare, ofName_name, hb]

/-- C124, the part that is false: what stands behind the first argument that is no flag has no effect and is not reported, for every command line. -/
theorem c124_ignored (l : List Written) (hl : ∀ w ∈ l, w.Allowed ∧ Readable env w.says) (s : Str) (hs : s.length < 2 ∨ s.head? ≠ some '-')
    (more : List Str) :
    parseFlags env (l.flatMap Written.args ++ s :: more) = parseFlags env (l.flatMap Written.args) := by
  obtain ⟨c, h1, h2⟩ := c124_honoured (env := env) l hl
  rw [h1]
  exact (c124_reads_partial _ c).2 ⟨l, s :: more, rfl, hl, Or.inr ⟨s, more, rfl, Or.inr hs⟩, h2⟩

/-- C124, an instance: the folder for the key shares is given, but a switch before it is written with a value of its own. The node starts and
keeps its shares in the folder it was started in. -/
theorem c124_home_lost :
    ∃ c, parseFlags env ["-pretty-log".toList, "true".toList, "-home".toList, "/data".toList] = some c ∧ c.home = [] := by
  have hl : ∀ w ∈ [Written.bare false .prettyLog], w.Allowed ∧ Readable env w.says := by
    intro w hw
    rw [List.mem_singleton] at hw
    subst hw
    exact ⟨Or.inr (Or.inl rfl), by show truth "true".toList ≠ none; decide +kernel⟩
  obtain ⟨c, h1, h2⟩ := c124_honoured (env := env) _ hl
  refine ⟨c, ?_, h2.home⟩
  have h := c124_ignored (env := env) _ hl "true".toList (Or.inr (by decide)) ["-home".toList, "/data".toList]
  rw [← h1, ← h]
  rfl

/-- C124: the time a join waits for the others cannot be set on the command line: it is ten seconds. -/
theorem c124_join_time (args : List Str) (c : Conf A) (h : parseFlags env args = some c) : joinTimeout c.partyTimeout = 10000000000 := by
  obtain ⟨l, rest, -, -, -, hm⟩ := (c124_reads_partial args c).1 h
  rw [hm.partyTimeout]
  rfl

/-- C124: the program goes on exactly with a command line that is accepted and does not ask for help. -/
theorem c124_goes_on (args : List Str) (c : Conf A) :
    begin_ env args = .go c ↔ parseFlags env args = some c ∧ c.help = false := by
  unfold begin_
  rcases parseFlags env args with _ | c'
  · simp
  · by_cases hh : c'.help = true
    · simp [hh]
      rintro rfl; exact hh
    · simp only [hh, Bool.false_eq_true, if_false, Begin.go.injEq, Option.some.injEq]
      constructor
      · rintro rfl; exact ⟨rfl, by simpa using hh⟩
      · exact fun h => h.1

/-! ## a concrete command line -/

/-- decimal numbers -/
def demoNum (s : Str) : Option Int := if s ≠ [] ∧ s.all Char.isDigit then some (s.foldl (fun n c => 10 * n + (c.toNat - 48 : Nat)) 0) else none

/-- durations are numbers of seconds, addresses begin with '/' -/
def demoEnv : Env Str where
  duration s := if s.getLast? = some 's' then (demoNum s.dropLast).map (· * 1000000000) else none
  int := demoNum
  addr s := if s.head? = some '/' then some s else none

/-- `-home /data --peer=/a -gentimeout 60s -enablemonitor=false --home /d2 -peer /b -pretty-log` -/
def demoLine : List Written :=
  [.apart false .home "/data".toList, .equals true .peer "/a".toList, .apart false .genTimeout "60s".toList,
   .equals false .enableMonitor "false".toList, .apart true .home "/d2".toList, .apart false .peer "/b".toList, .bare false .prettyLog]

/-- it meets the hypotheses of `c124_honoured` -/
example : ∀ w ∈ demoLine, w.Allowed ∧ Readable demoEnv w.says := by
  have ht : truth "true".toList ≠ none := by decide +kernel
  have hf : truth "false".toList ≠ none := by decide +kernel
  have h60 : demoEnv.duration "60s".toList ≠ none := by decide +kernel
  have ha : demoEnv.addr "/a".toList ≠ none := by decide +kernel
  have hb : demoEnv.addr "/b".toList ≠ none := by decide +kernel
  intro w hw
  simp only [demoLine, List.mem_cons, List.not_mem_nil, or_false] at hw
  rcases hw with rfl | rfl | rfl | rfl | rfl | rfl | rfl
  · exact ⟨by simp [Written.Allowed, Switch], trivial⟩
  · exact ⟨trivial, ha⟩
  · exact ⟨by simp [Written.Allowed, Switch], h60⟩
  · exact ⟨trivial, hf⟩
  · exact ⟨by simp [Written.Allowed, Switch], trivial⟩
  · exact ⟨by simp [Written.Allowed, Switch], hb⟩
  · exact ⟨by simp [Written.Allowed, Switch], ht⟩

example : parseFlags demoEnv (demoLine.flatMap Written.args) =
    some { (defaults : Conf Str) with
      home := "/d2".toList, peers := ["/a".toList, "/b".toList], genTimeout := 60000000000, monitor := false, pretty := true } := by decide +kernel

/-- an unknown flag, an unreadable value, a missing value, two minus signs alone -/
example : parseFlags demoEnv ["-homes".toList, "x".toList] = none ∧ parseFlags demoEnv ["-p2p-port".toList, "x".toList] = none ∧
    parseFlags demoEnv ["-home".toList] = none ∧ parseFlags demoEnv ["--".toList, "-home".toList] = some defaults := by decide +kernel

end Verif.Props.CommandLine
