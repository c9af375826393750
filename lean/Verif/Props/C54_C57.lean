import Mathlib.Data.List.Infix
import Verif.Model.Storage
import Mathlib.Data.List.Induction
import Mathlib.Data.List.Flatten

set_option linter.unusedSectionVars false

/-!
# C54–C57: the storage of key shares and of the address book
-/
namespace Verif.Props.Storage
open Verif.Go Verif.TssCommon Verif.Storage

variable {S A Q : Type}

/-! ## Specification -/

/-- the letters of the data part of a bech32 text -/
def bech32Charset : List Char := "qpzry9x8gf2tvdw0s3jn54khce6mua7l".toList

/-- Specification: a text that `bech32.Decode` accepts with the prefix `pre`: up to the case of its letters it is the prefix, a "1" and
letters of the charset -/
def Bech32Text (pre : List Char) (k : String) : Prop :=
  ∃ data : List Char, k.toList.map Char.toLower = pre ++ '1' :: data ∧ ∀ c ∈ data, c ∈ bech32Charset

/-- Specification: what is assumed of the environment: accepted keys are bech32 texts with a prefix without slash (and are not empty),
and JSON decodes what it encoded -/
structure Good (env : Storage.Env S) (pre : List Char) : Prop where
  slash : '/' ∉ pre
  key : ∀ k, env.checkKey k = .ok true → Bech32Text pre k
  json : ∀ s b, env.enc s = some b → env.dec b = some s

/-- Specification: the last state saved for the key `k` in a history of calls; a call whose write fails at opening the file saves nothing -/
def lastSaved (pubKeyOf : S → String) (k : String) (h : List (Op S A Q)) : Option S :=
  h.foldl (fun last op => match op with
    | .save s f => if f = none ∧ pubKeyOf s = k then some s else last
    | .book _ _ _ => last) none

/-! ## Paths -/

theorem splitOn_none {c : Char} : ∀ {l : List Char}, c ∉ l → splitOn c l = [l]
  | [], _ => rfl
  | x :: xs, h => by
    simp only [List.mem_cons, not_or] at h
    simp [splitOn, Ne.symm h.1, splitOn_none h.2]

/-- joining a simple name goes exactly one level down -/
theorem join_simple (dir : Path) (name : String) (h : '/' ∉ name.toList) (h₁ : name ≠ "") (h₂ : name ≠ ".") (h₃ : name ≠ "..") :
    join dir name = dir ++ [name] := by
  simp [join, cleanAppend, splitOn_none h, String.ofList_toList, h₁, h₂, h₃]

theorem no_slash {pre : List Char} (hpre : '/' ∉ pre) {k : String} (h : Bech32Text pre k) : '/' ∉ k.toList := by
  obtain ⟨data, he, hd⟩ := h
  intro hk
  have : '/' ∈ k.toList.map Char.toLower := List.mem_map.2 ⟨'/', hk, by decide⟩
  rw [he] at this
  simp only [List.mem_append, List.mem_cons] at this
  rcases this with h | h | h
  · exact hpre h
  · revert h; decide
  · exact absurd (hd _ h) (by decide)

theorem key_ne {pre : List Char} {k : String} (h : Bech32Text pre k) : k ≠ "" := by
  rintro rfl
  obtain ⟨data, he, -⟩ := h
  simp at he

theorem fileName_toList (k : String) : (localFileName k).toList = "localstate-".toList ++ k.toList ++ ".json".toList := by
  simp [localFileName]

theorem fileName_path {dir : Path} {k : String} (h : '/' ∉ k.toList) : join dir (localFileName k) = dir ++ [localFileName k] := by
  have hl : 11 ≤ (localFileName k).toList.length := by rw [fileName_toList]; simp
  apply join_simple
  · rw [fileName_toList]
    simp only [List.mem_append, not_or]
    exact ⟨⟨by decide, h⟩, by decide⟩
  all_goals
    intro e
    rw [e] at hl
    revert hl
    decide

theorem fileName_inj {k₁ k₂ : String} (h : localFileName k₁ = localFileName k₂) : k₁ = k₂ := by
  have := congrArg String.toList h
  rw [fileName_toList, fileName_toList, List.append_assoc, List.append_assoc] at this
  exact String.toList_inj.1 (List.append_cancel_right (List.append_cancel_left this))

theorem book_path (dir : Path) : join dir "address_book.seed" = dir ++ ["address_book.seed"] :=
  join_simple dir _ (by decide) (by decide) (by decide) (by decide)

theorem fileName_ne_book (k : String) : localFileName k ≠ "address_book.seed" := by
  intro h
  have := congrArg (fun s => s.toList.head?) h
  simp [fileName_toList] at this

theorem getFilePathName_ok {env : Storage.Env S} {pre : List Char} (g : Good env pre) (dir : Path) {k : String}
    (hk : env.checkKey k = .ok true) : getFilePathName env dir k = .ok (dir ++ [localFileName k]) := by
  simp only [getFilePathName, hk]
  rw [fileName_path (no_slash g.slash (g.key k hk))]

theorem getFilePathName_eq {env : Storage.Env S} {dir p : Path} {k : String} (h : getFilePathName env dir k = .ok p) :
    env.checkKey k = .ok true := by
  unfold getFilePathName at h
  split at h <;> first | assumption | exact absurd h (by simp)

/-- C56. The file of an accepted key lies directly in the configured folder; different keys have different files; and no key has the file
of the address book. -/
theorem c56_file_names {env : Storage.Env S} {pre : List Char} (g : Good env pre) (dir : Path) (k : String) (p : Path)
    (hp : getFilePathName env dir k = .ok p) :
    (∃ name, p = dir ++ [name]) ∧ p ≠ join dir "address_book.seed" ∧
    ∀ k' p', getFilePathName env dir k' = .ok p' → k' ≠ k → p' ≠ p := by
  have h := getFilePathName_ok g dir (getFilePathName_eq hp)
  obtain rfl : p = dir ++ [localFileName k] := by simpa [hp] using h
  refine ⟨⟨_, rfl⟩, ?_, ?_⟩
  · rw [book_path]
    intro e
    exact fileName_ne_book k (by simpa using e)
  · intro k' p' hp' hne e
    have h' := getFilePathName_ok g dir (getFilePathName_eq hp')
    obtain rfl : p' = dir ++ [localFileName k'] := by simpa [hp'] using h'
    exact hne (fileName_inj (by simpa using e))

/-! ## Reading and writing -/

theorem writeFile_other (d : Disk) (p q : Path) (b : Bytes) (f : Option Fault) (h : q ≠ p) :
    Map.get (writeFile d p b f).1 q = Map.get d q := by
  unfold writeFile
  split
  · exact Map.get_set_ne _ _ h
  · rfl
  · split <;> exact Map.get_set_ne _ _ h

theorem get_congr (env : Storage.Env S) (dir : Path) (k : String) (d d' : Disk)
    (h : ∀ p, getFilePathName env dir k = .ok p → Map.get d p = Map.get d' p) : GetLocalState env dir k d = GetLocalState env dir k d' := by
  unfold GetLocalState
  split
  · rfl
  · split
    · rfl
    · rfl
    · rename_i p hp
      rw [h p hp]

/-- what a save does, whatever happens to its write: the states of all other keys and the address book stay as they are -/
theorem save_other {env : Storage.Env S} {pre : List Char} (g : Good env pre) (pubKeyOf : S → String) (dir : Path) (s : S)
    (f : Option Fault) (d : Disk) :
    (∀ k, k ≠ pubKeyOf s → GetLocalState env dir k (SaveLocalState env pubKeyOf dir s f d).1 = GetLocalState env dir k d) ∧
    (∀ aenv : AddrEnv A Q, RetrieveP2PAddresses aenv (some dir) (SaveLocalState env pubKeyOf dir s f d).1 =
      RetrieveP2PAddresses aenv (some dir) d) := by
  unfold SaveLocalState
  split
  · exact ⟨fun _ _ => rfl, fun _ => rfl⟩
  · rename_i buf _
    cases hp : getFilePathName env dir (pubKeyOf s) with
    | err e => exact ⟨fun _ _ => rfl, fun _ => rfl⟩
    | panic => exact ⟨fun _ _ => rfl, fun _ => rfl⟩
    | ok p =>
      obtain ⟨-, h₂, h₃⟩ := c56_file_names g dir _ p hp
      refine ⟨?_, ?_⟩
      · intro k hk
        apply get_congr
        intro q hq
        exact writeFile_other _ _ _ _ _ (h₃ k q hq hk)
      · intro aenv
        simp only [RetrieveP2PAddresses]
        rw [writeFile_other _ _ _ _ _ (Ne.symm h₂)]

/-- C54, independence. A call of `SaveLocalState`, also one whose write fails or is interrupted at any point, changes neither the state read
for another key nor the address book; and saving the address book, failing or not, changes no key's state. -/
theorem c54_independence {env : Storage.Env S} {pre : List Char} (g : Good env pre) (aenv : AddrEnv A Q) (pubKeyOf : S → String) (dir : Path)
    (d : Disk) :
    (∀ s f k, k ≠ pubKeyOf s → GetLocalState env dir k (SaveLocalState env pubKeyOf dir s f d).1 = GetLocalState env dir k d) ∧
    (∀ s f, RetrieveP2PAddresses aenv (some dir) (SaveLocalState env pubKeyOf dir s f d).1 = RetrieveP2PAddresses aenv (some dir) d) ∧
    (∀ σ book f k, GetLocalState env dir k (SaveAddressBook aenv (some dir) σ book f d).1 = GetLocalState env dir k d) := by
  refine ⟨fun s f => (save_other (A := A) (Q := Q) g pubKeyOf dir s f d).1, fun s f => (save_other g pubKeyOf dir s f d).2 aenv, ?_⟩
  intro σ book f k
  apply get_congr
  intro p hp
  exact writeFile_other _ _ _ _ _ (c56_file_names g dir k p hp).2.1

/-- C54, reading back. After any history of calls, in which writes of other keys and of the address book may fail or be interrupted anywhere,
and writes of `k` may fail to open the file, `GetLocalState(k)` returns the last state saved for `k`; if there is none, what it returned
at the beginning. -/
theorem c54_read_back {env : Storage.Env S} {pre : List Char} (g : Good env pre) (aenv : AddrEnv A Q) (pubKeyOf : S → String) (dir : Path)
    (d : Disk) (h : List (Op S A Q)) (k : String) (hk : env.checkKey k = .ok true)
    (henc : ∀ s f, .save s f ∈ h → env.enc s ≠ none)
    (hf : ∀ s f, .save s f ∈ h → pubKeyOf s = k → f = none ∨ f = some .open_) :
    GetLocalState env dir k (run env aenv pubKeyOf dir d h) =
      match lastSaved pubKeyOf k h with
      | some s => .ok s
      | none => GetLocalState env dir k d := by
  induction h using List.reverseRecOn with
  | nil => rfl
  | append_singleton h op ih =>
    have ih := ih (fun s f m => henc s f (by simp [m])) (fun s f m => hf s f (by simp [m]))
    have hr : run env aenv pubKeyOf dir d (h ++ [op]) = (apply env aenv pubKeyOf dir (run env aenv pubKeyOf dir d h) op).1 := by simp [Storage.run]
    rw [hr]
    generalize run env aenv pubKeyOf dir d h = d' at ih
    cases op with
    | book σ b f =>
      have e : lastSaved pubKeyOf k (h ++ [.book σ b f]) = lastSaved pubKeyOf k h := by simp [lastSaved]
      rw [e, ← ih]
      exact (c54_independence g aenv pubKeyOf dir d').2.2 σ b f k
    | save s f =>
      by_cases hs : pubKeyOf s = k
      · rcases hf s f (by simp) hs with rfl | rfl
        · have e : lastSaved pubKeyOf k (h ++ [.save s none]) = some s := by simp [lastSaved, hs]
          obtain ⟨b, hb⟩ := Option.ne_none_iff_exists'.1 (henc s none (by simp))
          have hp := getFilePathName_ok g dir hk
          have hne := key_ne (g.key k hk)
          simp [e, Storage.apply, SaveLocalState, hb, hs, hp, writeFile, GetLocalState, Map.get_set_self, g.json s b hb, hne]
        · have e : lastSaved pubKeyOf k (h ++ [.save s (some .open_)]) = lastSaved pubKeyOf k h := by simp [lastSaved]
          obtain ⟨b, hb⟩ := Option.ne_none_iff_exists'.1 (henc s (some .open_) (by simp))
          have hp := getFilePathName_ok g dir hk
          rw [e, ← ih]
          simp [Storage.apply, SaveLocalState, hb, hs, hp, writeFile]
      · have e : lastSaved pubKeyOf k (h ++ [.save s f]) = lastSaved pubKeyOf k h := by
          simp [lastSaved, hs]
        rw [e, ← ih]
        exact (c54_independence g aenv pubKeyOf dir d').1 s f k (Ne.symm hs)

/-- C54: a save that reports success has stored the state: it is read back at once, and a save that reports an error for a refused key has
changed nothing. -/
theorem c54_success_is_stored {env : Storage.Env S} {pre : List Char} (g : Good env pre) (pubKeyOf : S → String) (dir : Path) (d : Disk)
    (s : S) (f : Option Fault) :
    ((SaveLocalState env pubKeyOf dir s f d).2 = .ok () → GetLocalState env dir (pubKeyOf s) (SaveLocalState env pubKeyOf dir s f d).1 = .ok s) ∧
    (env.checkKey (pubKeyOf s) ≠ .ok true → (SaveLocalState env pubKeyOf dir s f d).1 = d ∧ (SaveLocalState env pubKeyOf dir s f d).2 ≠ .ok ()) := by
  refine ⟨?_, ?_⟩
  · intro h
    unfold SaveLocalState at h ⊢
    cases hb : env.enc s with
    | none => simp [hb] at h
    | some b =>
      simp only [hb] at h ⊢
      cases hp : getFilePathName env dir (pubKeyOf s) with
      | err e => simp [hp] at h
      | panic => simp [hp] at h
      | ok p =>
        simp only [hp] at h ⊢
        have hne := key_ne (g.key _ (getFilePathName_eq hp))
        have hw : (writeFile d p b f).1 = Map.set d p b := by
          unfold writeFile at h ⊢
          split at h
          · rfl
          · simp at h
          · split at h
            · simp at h
            · rename_i hn
              simp [hn]
        simp [hw, GetLocalState, hp, hne, Map.get_set_self, g.json s b hb]
  · intro h
    unfold SaveLocalState
    cases hb : env.enc s with
    | none => exact ⟨rfl, by simp⟩
    | some b =>
      cases hp : getFilePathName env dir (pubKeyOf s) with
      | err e => exact ⟨rfl, by simp⟩
      | panic => exact ⟨rfl, by simp⟩
      | ok p => exact absurd (getFilePathName_eq hp) h

/-! ## Crashes -/

/-- C55, the full statement: after a crash at any point of a save, every key reads as before or as saved. -/
def CrashSafe (env : Storage.Env S) (pubKeyOf : S → String) : Prop :=
  ∀ (dir : Path) (d : Disk) (s : S) (f : Fault) (k : String),
    GetLocalState env dir k (SaveLocalState env pubKeyOf dir s (some f) d).1 = GetLocalState env dir k d ∨
    (k = pubKeyOf s ∧ GetLocalState env dir k (SaveLocalState env pubKeyOf dir s (some f) d).1 = .ok s)

/-- C55, the part that holds: after a crash during a save all other keys read as before; the key itself reads as before if the file was
not opened yet and as saved if all bytes were written. Missing: a crash in between; `c55_crash_loses_share` shows that it fails there. -/
theorem c55_crash_partial {env : Storage.Env S} {pre : List Char} (g : Good env pre) (pubKeyOf : S → String) (dir : Path) (d : Disk) (s : S)
    (f : Fault) (k : String) (hf : k = pubKeyOf s → f = .open_ ∨ ∃ n b, f = .after n ∧ env.enc s = some b ∧ b.length ≤ n)  :
    GetLocalState env dir k (SaveLocalState env pubKeyOf dir s (some f) d).1 = GetLocalState env dir k d ∨
    (k = pubKeyOf s ∧ GetLocalState env dir k (SaveLocalState env pubKeyOf dir s (some f) d).1 = .ok s) := by
  by_cases hk : k = pubKeyOf s
  · rcases hf hk with rfl | ⟨n, b, rfl, hb, hn⟩
    · left
      unfold SaveLocalState
      split
      · rfl
      · split <;> rfl
    · cases hp : getFilePathName env dir (pubKeyOf s) with
      | err e => left; simp [SaveLocalState, hb, hp]
      | panic => left; simp [SaveLocalState, hb, hp]
      | ok p =>
        right
        refine ⟨hk, ?_⟩
        rw [hk]
        apply (c54_success_is_stored g pubKeyOf dir d s (some (.after n))).1
        simp [SaveLocalState, hb, hp, writeFile, Nat.not_lt.2 hn]
  · left
    exact (save_other (A := Unit) (Q := Unit) g pubKeyOf dir s _ d).1 k hk

/-- C55 is false. Whatever the key, its old state and its new state: if the old state is stored and the process crashes after writing `n`
bytes, fewer than the encoding has and not decodable, the key can no longer be read: neither the old nor the new state is there. -/
theorem c55_crash_loses_share {env : Storage.Env S} {pre : List Char} (g : Good env pre) (pubKeyOf : S → String) (dir : Path) (d : Disk)
    (old new : S) (hkey : pubKeyOf old = pubKeyOf new) (hold : GetLocalState env dir (pubKeyOf old) d = .ok old)
    (b : Bytes) (hb : env.enc new = some b) (n : Nat) (hn : n < b.length) (hcut : env.dec (b.take n) = none) :
    (∃ e, GetLocalState env dir (pubKeyOf old) (SaveLocalState env pubKeyOf dir new (some (.after n)) d).1 = .err e) ∧
    ¬ CrashSafe env pubKeyOf := by
  have hp : ∃ p, getFilePathName env dir (pubKeyOf new) = .ok p := by
    rw [← hkey]
    unfold GetLocalState at hold
    split at hold
    · simp at hold
    · split at hold
      · simp at hold
      · simp at hold
      · exact ⟨_, by assumption⟩
  obtain ⟨p, hp⟩ := hp
  have hne := key_ne (g.key _ (getFilePathName_eq hp))
  have key : GetLocalState env dir (pubKeyOf old) (SaveLocalState env pubKeyOf dir new (some (.after n)) d).1 =
      .err "fail to unmarshal KeygenLocalState" := by
    simp [SaveLocalState, hb, hp, writeFile, hn, GetLocalState, hkey, hne, Map.get_set_self, hcut]
  refine ⟨⟨_, key⟩, ?_⟩
  intro h
  rcases h dir d new (.after n) (pubKeyOf old) with h | ⟨-, h⟩
  · rw [key, hold] at h; simp at h
  · rw [key] at h; simp at h

/-! ## The address book -/

theorem splitOn_line {c : Char} : ∀ (l rest : List Char), c ∉ l → splitOn c (l ++ c :: rest) = l :: splitOn c rest
  | [], rest, _ => by simp [splitOn]
  | x :: xs, rest, h => by
    simp only [List.mem_cons, not_or] at h
    simp [splitOn, Ne.symm h.1, splitOn_line xs rest h.2]

/-- the lines of a text made of lines -/
theorem splitOn_lines (ls : List (List Char)) (h : ∀ l ∈ ls, '\n' ∉ l) :
    splitOn '\n' (ls.flatMap fun l => l ++ ['\n']) = ls ++ [[]] := by
  induction ls with
  | nil => rfl
  | cons l ls ih =>
    simp only [List.flatMap_cons, List.append_assoc, List.singleton_append]
    rw [splitOn_line l _ (h l (by simp)), ih (fun l hl => h l (by simp [hl]))]
    rfl

/-- Specification: the records of the book: every address whose text does not contain "127.0.0.1", with the peer it was saved under -/
def entries (env : AddrEnv A Q) (book : List (Q × List A)) : List (A × Q) :=
  book.flatMap fun e => (e.2.filter fun a => decide (¬ "127.0.0.1".toList <:+: env.addrStr a)).map fun a => (a, e.1)

theorem isLoopback_iff (s : List Char) : isLoopback s = true ↔ "127.0.0.1".toList <:+: s := by
  unfold isLoopback TssCommon.strContains
  rw [List.any_eq_true]
  constructor
  · rintro ⟨t, ht, hp⟩
    exact (List.isPrefixOf_iff_prefix.1 hp).isInfix.trans ((List.mem_tails _ _).1 ht).isInfix
  · intro h
    obtain ⟨t, hp, ht⟩ := List.infix_iff_prefix_suffix.1 h
    exact ⟨t, (List.mem_tails _ _).2 ht, List.isPrefixOf_iff_prefix.2 hp⟩

/-- the text of a record -/
def line (env : AddrEnv A Q) (e : A × Q) : List Char := env.addrStr e.1 ++ "/p2p/".toList ++ env.peerStr e.2

theorem records_eq (env : AddrEnv A Q) (order : List (Q × List A)) :
    records env order = ((entries env order).map (line env)).flatMap fun l => l ++ ['\n'] := by
  unfold records entries
  induction order with
  | nil => rfl
  | cons e order ih =>
    obtain ⟨q, as⟩ := e
    simp only [List.flatMap_cons, List.map_append, List.flatMap_append, ih]
    congr 1
    induction as with
    | nil => rfl
    | cons a as iha =>
      simp only [List.flatMap_cons, iha]
      by_cases ha : isLoopback (env.addrStr a) = true
      · have hb := (isLoopback_iff _).1 ha
        rw [List.filter_cons_of_neg (by rw [decide_eq_true_eq, not_not]; exact hb), if_pos ha]
        rfl
      · have hb := fun h => ha ((isLoopback_iff _).2 h)
        rw [List.filter_cons_of_pos (by rw [decide_eq_true_eq]; exact hb), if_neg ha]
        rfl

theorem parseLines_map (env : AddrEnv A Q) (encap : A → Q → A) (es : List (A × Q))
    (hparse : ∀ e ∈ es, env.parse (line env e) = some (encap e.1 e.2)) :
    parseLines env (es.map (line env) ++ [[]]) = .ok (es.map fun e => encap e.1 e.2) := by
  induction es with
  | nil => simp [parseLines]
  | cons e es ih =>
    have hne : (line env e).length ≠ 0 := by simp [line]
    simp [parseLines, hne, hparse e (by simp), ih (fun e he => hparse e (by simp [he])), Res.bind]

/-- Specification: what is assumed of the texts: converting to bytes and back is the identity, no text contains a line break, and the text of
an address, "/p2p/" and the text of a peer is the text of the address with the peer -/
structure GoodAddr (env : AddrEnv A Q) (encap : A → Q → A) : Prop where
  text : ∀ t, env.text (env.bytes t) = t
  addr : ∀ a, '\n' ∉ env.addrStr a
  peer : ∀ q, '\n' ∉ env.peerStr q
  parse : ∀ a q, env.parse (env.addrStr a ++ "/p2p/".toList ++ env.peerStr q) = some (encap a q)

/-- the same for a book of which only the saved records are known to be good -/
theorem round_trip_on (env : AddrEnv A Q) (encap : A → Q → A) (dir : Path) (σ : Shuffle (Q × List A))
    (book : Map Q (List A)) (f : Option Fault) (d : Disk) (hok : (SaveAddressBook env (some dir) σ book f d).2 = .ok ())
    (htext : ∀ t, env.text (env.bytes t) = t) (hline : ∀ e ∈ entries env book, '\n' ∉ env.addrStr e.1 ∧ '\n' ∉ env.peerStr e.2 ∧
      env.parse (env.addrStr e.1 ++ "/p2p/".toList ++ env.peerStr e.2) = some (encap e.1 e.2)) :
    ∃ l, RetrieveP2PAddresses env (some dir) (SaveAddressBook env (some dir) σ book f d).1 = .ok l ∧
      l.Perm ((entries env book).map fun e => encap e.1 e.2) := by
  have hw : (SaveAddressBook env (some dir) σ book f d).1 = Map.set d (join dir "address_book.seed") (env.bytes (records env (σ.f book))) := by
    simp only [SaveAddressBook] at hok ⊢
    unfold writeFile at hok ⊢
    split at hok
    · rfl
    · simp at hok
    · split at hok
      · simp at hok
      · rename_i hn
        simp [hn]
  have hperm : (entries env (σ.f book)).Perm (entries env book) := (σ.perm book).flatMap_right _
  refine ⟨(entries env (σ.f book)).map fun e => encap e.1 e.2, ?_, ?_⟩
  · rw [hw]
    simp only [RetrieveP2PAddresses, Map.get_set_self, htext, records_eq]
    rw [splitOn_lines]
    · exact parseLines_map env encap _ (fun e he => (hline e (hperm.mem_iff.1 he)).2.2)
    · intro l hl
      obtain ⟨e, he, rfl⟩ := List.mem_map.1 hl
      simp only [line, List.mem_append, not_or]
      have := hline e (hperm.mem_iff.1 he)
      exact ⟨⟨this.1, by decide⟩, this.2.1⟩
  · exact hperm.map _

/-- C57. In any visiting order of the book, if saving it succeeds then reading it yields, up to order, exactly the saved addresses, each with
the peer it was saved under, except those whose text contains "127.0.0.1". Later saves of key shares do not change this. Missing in
comparison with the property: that the test of the text recognises exactly the loopback addresses; `c57_loopback_by_text` shows that it does not. -/
theorem c57_round_trip_partial (env : AddrEnv A Q) (encap : A → Q → A) (g : GoodAddr env encap) (dir : Path) (σ : Shuffle (Q × List A))
    (book : Map Q (List A)) (f : Option Fault) (d : Disk) (hok : (SaveAddressBook env (some dir) σ book f d).2 = .ok ()) :
    ∃ l, RetrieveP2PAddresses env (some dir) (SaveAddressBook env (some dir) σ book f d).1 = .ok l ∧
      l.Perm ((entries env book).map fun e => encap e.1 e.2) :=
  round_trip_on env encap dir σ book f d hok g.text fun e _ => ⟨g.addr e.1, g.peer e.2, g.parse e.1 e.2⟩

theorem parseLines_ok (env : AddrEnv A Q) (ls : List (List Char)) (l : List A) :
    parseLines env ls = .ok l ↔ List.Forall₂ (fun el a => env.parse el = some a) (ls.filter (· ≠ [])) l := by
  induction ls generalizing l with
  | nil =>
    constructor
    · intro h
      cases h
      exact .nil
    · intro h
      cases h
      rfl
  | cons el rest ih =>
    unfold parseLines
    by_cases he : el = []
    · rw [if_pos (by rw [he]; rfl), ih, List.filter_cons_of_neg (by simp [he])]
    · rw [if_neg (fun h => he (List.eq_nil_of_length_eq_zero h)), List.filter_cons_of_pos (by simp [he])]
      rcases hp : env.parse el with _ | a
      · constructor
        · intro h
          cases h
        · intro h
          cases h with
          | cons h1 h2 => rw [hp] at h1; cases h1
      · constructor
        · intro h
          obtain ⟨l', h1, h2⟩ := Res.bind_eq_ok.1 h
          cases h2
          exact .cons hp ((ih l').1 h1)
        · intro h
          cases h with
          | cons h1 h2 =>
            rw [hp] at h1
            cases h1
            exact Res.bind_eq_ok.2 ⟨_, (ih _).2 h2, rfl⟩

theorem parseLines_no_panic (env : AddrEnv A Q) (ls : List (List Char)) : parseLines env ls ≠ .panic := by
  induction ls with
  | nil => exact fun h => by cases h
  | cons el rest ih =>
    unfold parseLines
    split
    · exact ih
    · split
      · exact fun h => by cases h
      · rcases h : parseLines env rest with _ | _ | _
        · exact fun h => by cases h
        · exact fun h => by cases h
        · exact absurd h ih

/-- C57: what reading the book yields, whoever wrote the file: the addresses of its non-empty lines, in the order of the lines, nothing added
and nothing left out. -/
theorem c57_read_iff (env : AddrEnv A Q) (dir : Path) (d : Disk) (l : List A) :
    RetrieveP2PAddresses env (some dir) d = .ok l ↔
      ∃ buf, Map.get d (join dir "address_book.seed") = some buf ∧
        List.Forall₂ (fun line a => env.parse line = some a) ((splitOn '\n' (env.text buf)).filter (· ≠ [])) l := by
  unfold RetrieveP2PAddresses
  rcases hg : Map.get d (join dir "address_book.seed") with _ | buf
  · simp [hg]
  · simp only [hg, parseLines_ok, Option.some.injEq, exists_eq_left']

/-- C57: a book with a line that is not an address is refused as a whole, with an error, not read in part. -/
theorem c57_damaged_refused (env : AddrEnv A Q) (dir : Path) (d : Disk) (buf : Bytes) (line : List Char)
    (hg : Map.get d (join dir "address_book.seed") = some buf) (hl : line ∈ splitOn '\n' (env.text buf)) (hne : line ≠ []) (hp : env.parse line = none) :
    ∃ e, RetrieveP2PAddresses env (some dir) d = .err e := by
  rcases hr : RetrieveP2PAddresses env (some dir) d with l | e | _
  · obtain ⟨buf', h1, h2⟩ := (c57_read_iff env dir d l).1 hr
    rw [hg] at h1
    cases h1
    have hm : line ∈ (splitOn '\n' (env.text buf)).filter (· ≠ []) := List.mem_filter.2 ⟨hl, by simpa using hne⟩
    obtain ⟨i, hi, hx⟩ := List.getElem_of_mem hm
    have ha := (List.forall₂_iff_get.1 h2).2 i hi (by rw [← h2.length_eq]; exact hi)
    rw [List.get_eq_getElem, hx, hp] at ha
    cases ha
  · exact ⟨e, rfl⟩
  · unfold RetrieveP2PAddresses at hr
    dsimp only at hr
    rw [hg] at hr
    exact absurd hr (parseLines_no_panic env _)

/-- C57: the addresses are left out by a test of their text. An IPv6 loopback address is kept, and so is another IPv4 loopback address; the
name of a foreign host is left out when it contains the four numbers. -/
theorem c57_loopback_by_text :
    isLoopback "/ip6/::1/tcp/6668".toList = false ∧ isLoopback "/ip4/127.1.2.3/tcp/6668".toList = false ∧
    isLoopback "/dns4/127.0.0.1.example.com/tcp/6668".toList = true ∧ isLoopback "/ip4/127.0.0.2/tcp/6668".toList = false := by
  decide +kernel

/-! ## A storage in which the hypotheses hold -/

/-- States are a key and a byte; the encoding is the byte between two braces, with the number of the key in front. Accepted keys are the
two bech32 texts "thorpub1q" and "thorpub1p". -/
def demoEnv : Storage.Env (String × UInt8) where
  checkKey k := if k = "thorpub1q" ∨ k = "thorpub1p" then .ok true else .err "fail to parse pub key"
  enc s := if s.1 = "thorpub1q" then some [123, 0, s.2, 125] else if s.1 = "thorpub1p" then some [123, 1, s.2, 125] else none
  dec b := match b with
    | [123, 0, x, 125] => some ("thorpub1q", x)
    | [123, 1, x, 125] => some ("thorpub1p", x)
    | _ => none

theorem demo_good : Good demoEnv "thorpub".toList where
  slash := by decide
  key k h := by
    simp only [demoEnv] at h
    split at h
    · rename_i hk
      rcases hk with rfl | rfl
      · exact ⟨['q'], by decide, by decide⟩
      · exact ⟨['p'], by decide, by decide⟩
    · simp at h
  json s b h := by
    obtain ⟨k, x⟩ := s
    simp only [demoEnv] at h ⊢
    split at h
    · rename_i hk; obtain rfl := hk; obtain rfl := Option.some.inj h; rfl
    · split at h
      · rename_i hk; obtain rfl := hk; obtain rfl := Option.some.inj h; rfl
      · simp at h

/-- addresses and peers are their texts -/
def demoAddr : AddrEnv (List Char) (List Char) where
  addrStr a := a
  peerStr q := q
  parse t := some t
  bytes t := (String.ofList t).toUTF8.data.toList
  text b := b.map fun x => Char.ofNat x.toNat

/-- C57: a book with an empty line is read; one with a line which is not an address is not -/
example : let env : AddrEnv (List Char) (List Char) := { demoAddr with parse := fun t => if t.head? = some '/' then some t else none }
    RetrieveP2PAddresses env (some ["home"]) [(["home", "address_book.seed"], "/a\n\n/b\n".toUTF8.data.toList)] = .ok ["/a".toList, "/b".toList] ∧
    RetrieveP2PAddresses env (some ["home"]) [(["home", "address_book.seed"], "/a\nb\n".toUTF8.data.toList)] = .err "invalid address in address book" := by
  decide +kernel

/-- two saves of one key, one of another that is interrupted, and one of the first that cannot open its file -/
def demoHistory : List (Op (String × UInt8) (List Char) (List Char)) :=
  [.save ("thorpub1q", 1) none, .save ("thorpub1p", 9) none, .save ("thorpub1q", 2) none, .save ("thorpub1p", 8) (some (.after 2)),
   .book (Shuffle.id _) [("Qm".toList, ["/ip4/1.2.3.4".toList])] none, .save ("thorpub1q", 3) (some .open_)]

example := c54_read_back demo_good demoAddr Prod.fst ["home", "tss"] [] demoHistory "thorpub1q" (by decide)
  (by
    intro s f h
    simp only [demoHistory, List.mem_cons, List.not_mem_nil, or_false, Op.save.injEq, reduceCtorEq, false_or] at h
    rcases h with ⟨rfl, rfl⟩ | ⟨rfl, rfl⟩ | ⟨rfl, rfl⟩ | ⟨rfl, rfl⟩ | ⟨rfl, rfl⟩ <;> decide)
  (by
    intro s f h
    simp only [demoHistory, List.mem_cons, List.not_mem_nil, or_false, Op.save.injEq, reduceCtorEq, false_or] at h
    rcases h with ⟨rfl, rfl⟩ | ⟨rfl, rfl⟩ | ⟨rfl, rfl⟩ | ⟨rfl, rfl⟩ | ⟨rfl, rfl⟩ <;> decide)

example : lastSaved Prod.fst "thorpub1q" demoHistory = some ("thorpub1q", 2) := by decide

/-- the interrupted save has lost the other key -/
example : GetLocalState demoEnv ["home", "tss"] "thorpub1p" (run demoEnv demoAddr Prod.fst ["home", "tss"] [] demoHistory) =
    .err "fail to unmarshal KeygenLocalState" := by decide +kernel

example : ¬ CrashSafe demoEnv Prod.fst :=
  (c55_crash_loses_share demo_good Prod.fst ["home"] [(["home", "localstate-thorpub1q.json"], [123, 0, 1, 125])] ("thorpub1q", 1) ("thorpub1q", 2)
    rfl (by decide +kernel) [123, 0, 2, 125] rfl 2 (by decide) (by decide)).2

example : getFilePathName demoEnv ["home", "tss"] "thorpub1q" = .ok ["home", "tss", "localstate-thorpub1q.json"] := by decide +kernel

/-- without the check of the key, a slash in it would lead out of the folder -/
example : join ["home", "tss"] (localFileName "/../../etc/x") = ["home", "etc", "x.json"] := by decide +kernel

/-- texts without line break -/
abbrev Text := { l : List Char // '\n' ∉ l }

/-- addresses and peers are texts; a character is stored as so many ones and a zero -/
def textEnv : AddrEnv Text Text where
  addrStr a := a.1
  peerStr q := q.1
  parse t := if h : '\n' ∉ t then some ⟨t, h⟩ else none
  bytes t := t.flatMap fun c => List.replicate c.toNat 1 ++ [0]
  text b := (b.foldl (fun (acc : List Char × Nat) x => if x = 0 then (acc.1 ++ [Char.ofNat acc.2], 0) else (acc.1, acc.2 + 1)) ([], 0)).1

def textEncap (a q : Text) : Text :=
  ⟨a.1 ++ "/p2p/".toList ++ q.1, by simp only [List.mem_append, not_or]; exact ⟨⟨a.2, by decide⟩, q.2⟩⟩

theorem unary (n : Nat) (acc : List Char) (k : Nat) :
    (List.replicate n (1 : UInt8)).foldl (fun (acc : List Char × Nat) x => if x = 0 then (acc.1 ++ [Char.ofNat acc.2], 0) else (acc.1, acc.2 + 1))
      (acc, k) = (acc, k + n) := by
  induction n generalizing k with
  | zero => rfl
  | succ n ih => simp [List.replicate_succ, ih]; omega

theorem text_good : GoodAddr textEnv textEncap where
  text t := by
    have : ∀ (t acc : List Char), (t.flatMap fun c => List.replicate c.toNat (1 : UInt8) ++ [0]).foldl
        (fun (acc : List Char × Nat) x => if x = 0 then (acc.1 ++ [Char.ofNat acc.2], 0) else (acc.1, acc.2 + 1)) (acc, 0) = (acc ++ t, 0) := by
      intro t
      induction t with
      | nil => simp
      | cons c t ih =>
        intro acc
        rw [List.flatMap_cons, List.foldl_append, List.foldl_append, unary]
        simp [ih]
    simp [textEnv, this]
  addr a := a.2
  peer q := q.2
  parse a q := by
    have : '\n' ∉ a.1 ++ "/p2p/".toList ++ q.1 := by simp only [List.mem_append, not_or]; exact ⟨⟨a.2, by decide⟩, q.2⟩
    show (if h : '\n' ∉ a.1 ++ "/p2p/".toList ++ q.1 then some (⟨_, h⟩ : Text) else none) = _
    rw [dif_pos this]
    rfl

/-- a book with two peers, saved in the opposite order -/
def demoBook : Map Text (List Text) :=
  [(⟨"QmA".toList, by decide⟩, [⟨"/ip4/10.0.0.1".toList, by decide⟩, ⟨"/ip4/127.0.0.1".toList, by decide⟩]),
   (⟨"QmB".toList, by decide⟩, [⟨"/ip4/10.0.0.2".toList, by decide⟩])]

example := c57_round_trip_partial textEnv textEncap text_good ["home"] ⟨List.reverse, fun l => List.reverse_perm l⟩ demoBook none [] rfl

example : (entries textEnv demoBook).map (fun e => (textEncap e.1 e.2).1) = ["/ip4/10.0.0.1/p2p/QmA".toList, "/ip4/10.0.0.2/p2p/QmB".toList] := by
  decide +kernel

end Verif.Props.Storage
