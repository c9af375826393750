import Verif.Model.Bench
import Verif.Lemmas.Conversion
import Verif.Props.C136
import Verif.Props.C137

set_option linter.unusedSectionVars false

/-!
# C148: the benchmark tools
-/
namespace Verif.Props.Benchmark
open Verif.Bench Verif.Go
open Verif.JsonState (SaveData Big)
open Verif.Conversion (Party sortPartyIDs secp256k1N hashToInt)
open Verif.Storage (Path Disk)
open Verif.Spec.Secp (Is Signs)

variable {M : Type}

/-! ## Specification -/

/-- Specification: the shares of one key generation. The ids of the parties are increasing; each party knows them all and has the one at its place; there is a public key. -/
structure Shares (ids : List Nat) (shares : List SaveData) : Prop where
  increasing : ids.Pairwise (· < ·)
  length : shares.length = ids.length
  own : ∀ (i : Nat) (s : SaveData), shares[i]? = some s → ∃ k, ids[i]? = some k ∧ s.shareID = some (k : Int)
  all : ∀ s ∈ shares, s.ks = ids.map fun (k : Nat) => some (k : Int)
  public_ : ∀ s ∈ shares, s.ecdsaPub.isSome

/-- Specification: the share that an event brings -/
def shareOf : GenEvent M → Option SaveData
  | .done d _ => some d
  | _ => none

/-- Specification: the library works. It brings each share once, in whatever order, reports no error, and its messages go to other parties; the files can be written. -/
structure Works (shares : List SaveData) (h : List (GenEvent M)) : Prop where
  once : (h.filterMap shareOf).Perm shares
  sound : .fail ∉ h
  others : ∀ m, .msg m ∈ h → m.dest = none ∨ ∃ t l, m.dest = some (t :: l) ∧ t ≠ m.sender ∧ t < shares.length
  files : ∀ d f, .done d f ∈ h → f = none

/-! ## files -/

theorem natText_inj {i j : Nat} (h : Json.natText i = Json.natText j) : i = j := by
  rw [← JsonTexts.decimal_nat i, h, JsonTexts.decimal_nat]

theorem fileOf_inj {dir : Path} {i j : Nat} (h : fileOf dir i = fileOf dir j) : i = j := by
  unfold fileOf at h
  have h1 := List.append_cancel_left h
  have h2 := String.ofList_injective (List.cons.inj h1).1
  exact natText_inj (List.append_cancel_left (List.append_cancel_right h2))

theorem share_text (s : SaveData) : Json.unmarshal {} (Json.dStruct JsonState.dataFields) (Json.utf8 (JsonState.dataText s)) = some s :=
  JsonMessages.unmarshal_says (JsonStorage.says_data s)

theorem index_of {ids : List Nat} (h : ids.Pairwise (· < ·)) : ∀ {i k : Nat}, ids[i]? = some k → originalIndex (k : Int) (ids.map fun (k : Nat) => some (k : Int)) = some i := by
  induction ids with
  | nil => intro i k h; simp at h
  | cons a l ih =>
    intro i k hi
    obtain ⟨h1, h2⟩ := List.pairwise_cons.1 h
    rw [List.map_cons, originalIndex]
    cases i with
    | zero =>
      simp only [List.getElem?_cons_zero, Option.some.injEq] at hi
      rw [if_pos (by rw [hi])]
    | succ i =>
      rw [List.getElem?_cons_succ] at hi
      have := h1 k (List.mem_of_getElem? hi)
      rw [if_neg (by omega), ih h2 hi]
      rfl

theorem shares_nodup {ids : List Nat} {shares : List SaveData} (hs : Shares ids shares) {i j : Nat} {s : SaveData} (hi : shares[i]? = some s) (hj : shares[j]? = some s) :
    i = j := by
  obtain ⟨k, h1, h2⟩ := hs.own i s hi
  obtain ⟨k', h3, h4⟩ := hs.own j s hj
  rw [h2] at h4
  have e : k = k' := by simpa using h4
  subst e
  have := index_of hs.increasing h1
  rw [index_of hs.increasing h3] at this
  exact (Option.some.inj this).symm

/-! ## key generation -/

theorem fold_finished (dir : Path) (n : Nat) : ∀ (h : List (GenEvent M)) (s : Gen M), s.status = .finished → h.foldl (genStep dir n) s = s
  | [], s, _ => rfl
  | e :: h, s, hs => by
    have : genStep dir n s e = s := by unfold genStep; rw [hs]
    rw [List.foldl_cons, this]
    exact fold_finished dir n h s hs

/-- the files so far -/
def Files (dir : Path) (shares seen : List SaveData) (d : Disk) : Prop :=
  ∀ (i : Nat) (s : SaveData), shares[i]? = some s →
    (s ∈ seen → Map.get d (fileOf dir i) = some (Json.utf8 (JsonState.dataText s))) ∧ (s ∉ seen → Map.get d (fileOf dir i) = none)

theorem gen_fold {ids : List Nat} {shares : List SaveData} (hs : Shares ids shares) (dir : Path) : ∀ (h : List (GenEvent M)) (seen : List SaveData) (g : Gen M),
    (seen ++ h.filterMap shareOf).Perm shares → seen.length < shares.length → g.status = .running → g.ended = seen.length → Files dir shares seen g.disk →
    .fail ∉ h → (∀ m, .msg m ∈ h → m.dest = none ∨ ∃ t l, m.dest = some (t :: l) ∧ t ≠ m.sender ∧ t < shares.length) → (∀ d f, .done d f ∈ h → f = none) →
    (h.foldl (genStep dir shares.length) g).status = .finished ∧ Files dir shares shares (h.foldl (genStep dir shares.length) g).disk
  | [], seen, g, hp, hl, _, _, _, _, _, _ => by
    have := hp.length_eq
    simp at this
    omega
  | e :: h, seen, g, hp, hl, hr, he, hf, h1, h2, h3 => by
    have h1' : .fail ∉ h := fun c => h1 (List.mem_cons_of_mem _ c)
    have h2' := fun m hm => h2 m (List.mem_cons_of_mem _ hm)
    have h3' := fun d f hm => h3 d f (List.mem_cons_of_mem _ hm)
    rw [List.foldl_cons]
    cases e with
    | fail => exact absurd (by simp) h1
    | msg m =>
      have hrel : ∃ l, relay shares.length m = some l := by
        unfold relay
        rcases h2 m (by simp) with e | ⟨t, l, e, h4, h5⟩
        · rw [e]; exact ⟨_, rfl⟩
        · rw [e]
          dsimp only
          rw [if_neg h4, if_pos h5]
          exact ⟨_, rfl⟩
      obtain ⟨l, hl'⟩ := hrel
      have hstep : genStep dir shares.length g (.msg m) = { g with handed := g.handed ++ l } := by
        unfold genStep
        rw [hr]
        dsimp only
        rw [hl']
      rw [hstep]
      exact gen_fold hs dir h seen _ hp hl hr he hf h1' h2' h3'
    | done d f =>
      have hf0 : f = none := h3 d f (by simp)
      subst hf0
      have hp' : (seen ++ d :: h.filterMap shareOf).Perm shares := by simpa [shareOf] using hp
      obtain ⟨i, hi⟩ := List.getElem?_of_mem (hp'.mem_iff.1 (by simp : d ∈ seen ++ d :: h.filterMap shareOf))
      have hnd : shares.Nodup := List.nodup_iff_getElem?_ne_getElem?.2 fun a b hab hb e => by
        obtain ⟨s, hs'⟩ := Option.ne_none_iff_exists'.1 (by rw [Ne, List.getElem?_eq_none_iff]; omega : shares[a]? ≠ none)
        have := shares_nodup hs hs' (e ▸ hs')
        omega
      have hns : d ∉ seen := by
        have := (List.nodup_append.1 (hp'.nodup_iff.2 hnd)).2.2
        exact fun c => this d c d (by simp) rfl
      obtain ⟨k, hk1, hk2⟩ := hs.own i d hi
      have hidx : d.shareID.bind (originalIndex · d.ks) = some i := by
        rw [hk2, hs.all d (List.mem_of_getElem? hi)]
        exact index_of hs.increasing hk1
      have hw : tryWriteKeyGenDataFile dir i d none g.disk = (Map.set g.disk (fileOf dir i) (Json.utf8 (JsonState.dataText d)), .ok ()) := by
        unfold tryWriteKeyGenDataFile
        rw [(hf i d hi).2 hns]
        rfl
      have hstep : genStep dir shares.length g (.done d none) = { g with
          disk := Map.set g.disk (fileOf dir i) (Json.utf8 (JsonState.dataText d))
          ended := g.ended + 1
          status := if g.ended + 1 = shares.length then .finished else .running } := by
        unfold genStep
        rw [hr]
        dsimp only
        rw [hidx]
        dsimp only
        rw [hw]
        dsimp only
        rw [if_pos (hs.public_ d (List.mem_of_getElem? hi))]
      have hfiles : Files dir shares (seen ++ [d]) (Map.set g.disk (fileOf dir i) (Json.utf8 (JsonState.dataText d))) := by
        intro j s hj
        by_cases hij : j = i
        · subst hij
          rw [hi] at hj
          obtain rfl := Option.some.inj hj
          exact ⟨fun _ => Map.get_set_self _ _ _, fun c => absurd (by simp) c⟩
        · have hsd : s ≠ d := fun c => hij (shares_nodup hs hj (c ▸ hi))
          rw [Map.get_set_ne _ _ fun c => hij (fileOf_inj c)]
          constructor
          · intro hm
            rcases List.mem_append.1 hm with hm | hm
            · exact (hf j s hj).1 hm
            · exact absurd (List.mem_singleton.1 hm) hsd
          · intro hm
            exact (hf j s hj).2 fun c => hm (List.mem_append_left _ c)
      rw [hstep]
      have hp2 : ((seen ++ [d]) ++ h.filterMap shareOf).Perm shares := by simpa using hp'
      by_cases hlast : g.ended + 1 = shares.length
      · rw [if_pos hlast]
        rw [fold_finished dir _ h _ rfl]
        refine ⟨rfl, fun j s hj => ⟨fun _ => (hfiles j s hj).1 ?_, fun c => absurd (List.mem_of_getElem? hj) c⟩⟩
        have hrest : h.filterMap shareOf = [] := by
          have := hp2.length_eq
          simp at this
          exact List.length_eq_zero_iff.1 (by omega)
        rw [hrest, List.append_nil] at hp2
        exact hp2.mem_iff.2 (List.mem_of_getElem? hj)
      · rw [if_neg hlast]
        exact gen_fold hs dir h (seen ++ [d]) _ hp2 (by have := hp2.length_eq; simp at this ⊢; omega) rfl (by simp [he]) hfiles h1' h2' h3'

theorem gen_done {ids : List Nat} {shares : List SaveData} (hs : Shares ids shares) (hne : shares ≠ []) (h : List (GenEvent M)) (hw : Works shares h) (dir : Path) (d : Disk)
    (hd : ∀ i, Map.get d (fileOf dir i) = none) :
    (runKeyGen dir shares.length d h).status = .finished ∧ Files dir shares shares (runKeyGen dir shares.length d h).disk :=
  gen_fold hs dir h [] _ (by simpa using hw.once) (by simpa using List.length_pos_iff.2 hne) rfl rfl
    (fun i s _ => ⟨fun c => absurd c (by simp), fun _ => hd i⟩) hw.sound hw.others hw.files

/-! ## reading -/

theorem read_files {dir : Path} {shares : List SaveData} {d : Disk} (hf : Files dir shares shares d) : ∀ (n i : Nat), i + n ≤ shares.length →
    readShares dir d (List.range' i n) = .ok ((shares.drop i).take n)
  | 0, i, _ => by simp [readShares]
  | n + 1, i, h => by
    have hi : i < shares.length := by omega
    rw [List.range'_succ, readShares, read_files hf n (i + 1) (by omega)]
    have hr : readShare dir d i = .ok shares[i] := by
      unfold readShare
      rw [(hf i shares[i] (List.getElem?_eq_getElem hi)).1 (List.getElem_mem _)]
      dsimp only
      rw [share_text]
    rw [hr, List.drop_eq_getElem_cons hi]
    rfl

theorem ids_of {ids : List Nat} : ∀ (shares : List SaveData) (i : Nat), (∀ (j : Nat) (s : SaveData), shares[j]? = some s → ∃ k, ids[i + j]? = some k ∧ s.shareID = some (k : Int)) →
    ∃ ps, idsOf i shares = some ps ∧ ps.length = shares.length ∧
      ∀ (j : Nat) (p : Party), ps[j]? = some p → ∃ k, ids[i + j]? = some k ∧ p = ⟨i + j + 1, Bytes.ofNat k, -1⟩
  | [], i, _ => ⟨[], rfl, rfl, by simp⟩
  | s :: l, i, h => by
    obtain ⟨k, h1, h2⟩ := h 0 s (by simp)
    obtain ⟨ps, h3, h4, h5⟩ := ids_of l (i + 1) fun j s' hj => by
      have := h (j + 1) s' (by simpa using hj)
      rwa [show i + (j + 1) = i + 1 + j by omega] at this
    refine ⟨⟨i + 1, Bytes.ofNat k, -1⟩ :: ps, ?_, by simp [h4], fun j p hj => ?_⟩
    · rw [idsOf, h2]
      dsimp only
      rw [h3]
      rfl
    · cases j with
      | zero =>
        simp only [List.getElem?_cons_zero, Option.some.injEq] at hj
        exact ⟨k, h1, hj.symm⟩
      | succ j =>
        rw [List.getElem?_cons_succ] at hj
        obtain ⟨k', h6, h7⟩ := h5 j p hj
        exact ⟨k', by rwa [show i + (j + 1) = i + 1 + j by omega], by rw [h7]; congr 1; omega⟩

theorem sort_sorted {ps : List Party} (h : ps.Pairwise fun a b => a.keyInt < b.keyInt) (i : Nat) : (sortPartyIDs ps)[i]? = ps[i]?.map fun p => { p with index := (i : Int) } := by
  unfold sortPartyIDs
  rw [List.Pairwise.insertionSort_eq (h.imp fun hab => le_of_lt hab), List.getElem?_map, List.getElem?_zipIdx, Option.map_map, Nat.zero_add]
  rfl

theorem load_files {ids : List Nat} {shares : List SaveData} (hs : Shares ids shares) {dir : Path} {d : Disk} (hf : Files dir shares shares d) (q : Nat)
    (hq : q ≤ shares.length) : ∃ ps, loadKeyGenData dir d (q : Int) = .ok (shares.take q, ps) ∧ ps.length = q ∧
      ∀ (i : Nat) (p : Party), ps[i]? = some p → p.index = i ∧ p.id = i + 1 ∧ ∃ s, shares[i]? = some s ∧ s.shareID = some (p.keyInt : Int) := by
  have hr := read_files hf q 0 (by omega)
  rw [List.drop_zero, ← List.range_eq_range'] at hr
  obtain ⟨ps, h1, h2, h3⟩ := ids_of (ids := ids) (shares.take q) 0 fun j s hj => by
    rw [Nat.zero_add]
    exact hs.own j s (by
      rw [List.getElem?_take] at hj
      split at hj
      · exact hj
      · cases hj)
  have hl : ps.length = q := by rw [h2, List.length_take]; omega
  have hsort : ps.Pairwise fun a b => a.keyInt < b.keyInt := by
    rw [List.pairwise_iff_getElem]
    intro i j hi hj hij
    obtain ⟨k, h4, h5⟩ := h3 i ps[i] (List.getElem?_eq_getElem hi)
    obtain ⟨k', h6, h7⟩ := h3 j ps[j] (List.getElem?_eq_getElem hj)
    rw [h5, h7]
    unfold Conversion.Party.keyInt
    rw [Bytes.toNat_ofNat, Bytes.toNat_ofNat]
    rw [Nat.zero_add] at h4 h6
    obtain ⟨hi', rfl⟩ := List.getElem?_eq_some_iff.1 h4
    obtain ⟨hj', rfl⟩ := List.getElem?_eq_some_iff.1 h6
    exact List.pairwise_iff_getElem.1 hs.increasing i j hi' hj' hij
  refine ⟨sortPartyIDs ps, ?_, ?_, fun i p hp => ?_⟩
  · unfold loadKeyGenData
    rw [if_neg (by omega), Int.toNat_natCast, hr]
    simp only [Go.Res.bind]
    rw [h1]
  · unfold sortPartyIDs
    rw [List.length_map, List.length_zipIdx, List.length_insertionSort, hl]
  · rw [sort_sorted hsort] at hp
    obtain ⟨p', hp', rfl⟩ := Option.map_eq_some_iff.1 hp
    obtain ⟨k, h4, rfl⟩ := h3 i p' hp'
    rw [Nat.zero_add] at h4
    refine ⟨rfl, by dsimp only; omega, ?_⟩
    have hi : i < shares.length := by
      rw [hs.length]
      exact (List.getElem?_eq_some_iff.1 h4).1
    obtain ⟨k', h5, h6⟩ := hs.own i shares[i] (List.getElem?_eq_getElem hi)
    rw [h4] at h5
    obtain rfl := Option.some.inj h5
    refine ⟨_, List.getElem?_eq_getElem hi, ?_⟩
    rw [h6]
    unfold Conversion.Party.keyInt
    dsimp only
    rw [Bytes.toNat_ofNat]

/-- **C148**: if the library works, in whatever order its parties finish, then the key generation tool comes to its end, and the signing tool, told any quorum up to the number of
parties, starts that many parties, each with its own share as it was generated, at the place that the party has among the others. -/
theorem c148_own_share (ids : List Nat) (shares : List SaveData) (hs : Shares ids shares) (hne : shares ≠ []) (h : List (GenEvent M)) (hw : Works shares h) (dir : Path) (d : Disk)
    (hd : ∀ i, Map.get d (fileOf dir i) = none) (q : Nat) (hq : q ≤ shares.length) (m : Nat) (h' : List (SignEvent M)) :
    (runKeyGen dir shares.length d h).status = .finished ∧
    ∃ seats s, runSign dir (runKeyGen dir shares.length d h).disk ((q : Int) - 1) m h' = some (seats, s) ∧ seats.map Prod.snd = shares.take q ∧
      ∀ (i : Nat) (p : Party) (x : SaveData), seats[i]? = some (p, x) → p.index = i ∧ x.shareID = some (p.keyInt : Int) := by
  obtain ⟨h1, h2⟩ := gen_done hs hne h hw dir d hd
  obtain ⟨ps, h3, h4, h5⟩ := load_files hs h2 q hq
  have hl : (shares.take q).length = q := by rw [List.length_take]; omega
  refine ⟨h1, ps.zip (shares.take q), h'.foldl (signStep (shares.take q) m) ⟨0, [], .running⟩, ?_, ?_, ?_⟩
  · unfold runSign
    rw [Int.sub_add_cancel, h3]
    dsimp only
    rw [if_neg (by rw [hl, h4]; simp)]
  · rw [List.map_snd_zip (by omega)]
  · intro i p x hp
    rw [List.getElem?_zip_eq_some] at hp
    obtain ⟨h6, -, s, h7, h8⟩ := h5 i p hp.1
    have h9 : (shares.take q)[i]? = shares[i]? := by
      rw [List.getElem?_take, if_pos]
      have := (List.getElem?_eq_some_iff.1 hp.1).1
      omega
    have h10 := hp.2
    dsimp only at h10
    rw [h9, h7] at h10
    exact ⟨h6, by rw [← Option.some.inj h10]; exact h8⟩

/-! ## messages -/

/-- C148: a broadcast message is handed to each other party once, and another one to the party it is addressed to; a message to oneself or to nobody is a panic. -/
theorem c148_relay (n : Nat) (m : Msg M) :
    (m.dest = none → ∃ l, relay n m = some l ∧ (l.map Prod.fst).Nodup ∧ ∀ i b, (i, b) ∈ l ↔ i < n ∧ i ≠ m.sender ∧ b = m.body) ∧
    (∀ t l, m.dest = some (t :: l) → t ≠ m.sender → t < n → relay n m = some [(t, m.body)]) ∧
    (relay n m = none ↔ m.dest = some [] ∨ ∃ t l, m.dest = some (t :: l) ∧ (t = m.sender ∨ n ≤ t)) := by
  refine ⟨fun h => ?_, fun t l h h1 h2 => ?_, ?_⟩
  · unfold relay
    rw [h]
    refine ⟨_, rfl, ?_, fun i b => ?_⟩
    · rw [List.map_map, show (Prod.fst ∘ fun i => (i, m.body)) = (id : Nat → Nat) from rfl, List.map_id]
      exact List.nodup_range.filter _
    · simp only [List.mem_map, List.mem_filter, List.mem_range, decide_eq_true_eq, Prod.mk.injEq]
      constructor
      · rintro ⟨j, ⟨h1, h2⟩, rfl, rfl⟩
        exact ⟨h1, h2, rfl⟩
      · rintro ⟨h1, h2, rfl⟩
        exact ⟨i, ⟨h1, h2⟩, rfl, rfl⟩
  · unfold relay
    rw [h]
    dsimp only
    rw [if_neg h1, if_pos h2]
  · unfold relay
    rcases m with ⟨a, _ | (_ | ⟨t, l⟩), b⟩
    · simp
    · simp
    · by_cases h1 : t = a
      · simp [h1]
      · by_cases h2 : t < n
        · simp [h1, h2]
        · simp [h1, h2]
          omega

theorem crashed_stays (dir : Path) (n : Nat) : ∀ (h : List (GenEvent M)) (s : Gen M), s.status = .crashed → h.foldl (genStep dir n) s = s
  | [], s, _ => rfl
  | e :: h, s, hs => by
    have : genStep dir n s e = s := by unfold genStep; rw [hs]
    rw [List.foldl_cons, this]
    exact crashed_stays dir n h s hs

/-! ## signatures -/

theorem sign_stays (keys : List SaveData) (m : Nat) : ∀ (h : List (SignEvent M)) (s : Sign M), s.status ≠ .running → h.foldl (signStep keys m) s = s
  | [], s, _ => rfl
  | e :: h, s, hs => by
    have : signStep keys m s e = s := by
      unfold signStep
      cases hst : s.status with
      | running => exact absurd hst hs
      | crashed => rfl
      | finished => rfl
    rw [List.foldl_cons, this]
    exact sign_stays keys m h s hs

theorem sign_fold (keys : List SaveData) (m : Nat) : ∀ (h : List (SignEvent M)) (s : Sign M), s.status = .running → (h.foldl (signStep keys m) s).status = .finished →
    keys ≠ [] ∧ ∃ r v, .done r v ∈ h ∧ check keys m r v = true
  | [], s, hs, hf => by
    rw [List.foldl_nil, hs] at hf
    cases hf
  | e :: h, s, hs, hf => by
    rw [List.foldl_cons] at hf
    by_cases hr : (signStep keys m s e).status = .running
    · obtain ⟨h1, r, v, h2, h3⟩ := sign_fold keys m h _ hr hf
      exact ⟨h1, r, v, List.mem_cons_of_mem _ h2, h3⟩
    · rw [sign_stays keys m h _ hr] at hf
      unfold signStep at hf
      rw [hs] at hf
      dsimp only at hf
      cases e with
      | fail => cases hf
      | msg x =>
        dsimp only at hf
        split at hf
        · cases hf
        · cases hf
      | done r v =>
        dsimp only at hf
        split at hf
        · rename_i hl
          split at hf
          · rename_i hc
            exact ⟨fun c => by rw [c] at hl; simp at hl, r, v, by simp, hc⟩
          · cases hf
        · cases hf

/-- C148: a signing comes to its end only with an ECDSA signature of the number that was to be signed, for the public key of the shares. -/
theorem c148_signature (dir : Path) (d : Disk) (t : Int) (m : Nat) (h : List (SignEvent M)) (seats : List (Party × SaveData)) (s : Sign M)
    (hr : runSign dir d t m h = some (seats, s)) (hpub : ∀ p x pub, (p, x) ∈ seats → x.ecdsaPub = some pub → PoolKeys.OnCurve ⟨pub.1.1.natAbs, pub.1.2.natAbs⟩)
    (hf : s.status = .finished) :
    ∃ p x pub Q r v, seats[0]? = some (p, x) ∧ x.ecdsaPub = some pub ∧ Is (some ⟨pub.1.1.natAbs, pub.1.2.natAbs⟩) Q ∧ .done r v ∈ h ∧
      Signs Q (hashToInt (Bytes.ofNat m) secp256k1N) (Bytes.toNat r) (Bytes.toNat v) := by
  unfold runSign at hr
  split at hr
  · rename_i keys ids hload
    split at hr
    · cases hr
    · rename_i hl
      obtain ⟨rfl, rfl⟩ := Prod.mk.inj (Option.some.inj hr)
      obtain ⟨h1, r, v, h2, h3⟩ := sign_fold keys m h _ rfl hf
      obtain ⟨k, keys, rfl⟩ := List.exists_cons_of_ne_nil h1
      unfold check at h3
      rw [List.head?_cons, Option.bind_some] at h3
      cases hk : k.ecdsaPub with
      | none => rw [hk] at h3; cases h3
      | some pub =>
        rw [hk] at h3
        dsimp only at h3
        have hids : 0 < ids.length := by
          have : (ids.length : Int) = ((k :: keys).length : Int) := by omega
          simp at this
          omega
        have hseat : (ids.zip (k :: keys))[0]? = some (ids[0], k) := List.getElem?_zip_eq_some.2 ⟨List.getElem?_eq_getElem hids, by simp⟩
        have hQ := Ecdsa.is_elem _ (hpub _ _ pub (List.mem_of_getElem? hseat) hk)
        exact ⟨ids[0], k, pub, _, r, v, hseat, hk, hQ, h2, (Ecdsa.c137_verify _ _ hQ _ _ _).1 h3⟩
  · cases hr

/-! ## the table -/

theorem oneRun_some {dir : Path} {d : Disk} {play : Int → Play M} : ∀ {qs : List Int} {r : List (Int × Nat)}, oneRun dir d play qs = some r →
    r = qs.map (fun q => (q, (play q).ms)) ∧ ∀ q ∈ qs, ∃ seats s, runSign dir d (q - 1) (play q).m (play q).events = some (seats, s) ∧ s.status = .finished
  | [], r, h => by
    cases h
    exact ⟨rfl, by simp⟩
  | q :: qs, r, h => by
    unfold oneRun at h
    split at h
    · cases h
    · rename_i seats s hr
      split at h
      · rename_i hf
        obtain ⟨r', h1, rfl⟩ := Option.map_eq_some_iff.1 h
        obtain ⟨rfl, h3⟩ := oneRun_some h1
        refine ⟨rfl, fun q' hq => ?_⟩
        rcases List.mem_cons.1 hq with rfl | hq
        · exact ⟨seats, s, hr, hf⟩
        · exact h3 q' hq
      · cases h

theorem allRuns_some {dir : Path} {d : Disk} {play : Nat → Int → Play M} {qs : List Int} : ∀ {is : List Nat} {rs : List (List (Int × Nat))},
    allRuns dir d play qs is = some rs → rs = is.map (fun i => qs.map fun q => (q, (play i q).ms)) ∧
      ∀ i ∈ is, ∀ q ∈ qs, ∃ seats s, runSign dir d (q - 1) (play i q).m (play i q).events = some (seats, s) ∧ s.status = .finished
  | [], rs, h => by
    cases h
    exact ⟨rfl, by simp⟩
  | i :: is, rs, h => by
    unfold allRuns at h
    split at h
    · cases h
    · rename_i r hr
      obtain ⟨r', h1, rfl⟩ := Option.map_eq_some_iff.1 h
      obtain ⟨rfl, h2⟩ := oneRun_some hr
      obtain ⟨rfl, h3⟩ := allRuns_some h1
      refine ⟨rfl, fun j hj => ?_⟩
      rcases List.mem_cons.1 hj with rfl | hj
      · exact h2
      · exact h3 j hj

/-- Specification: the quorums from `a` to `b` -/
def quorums (a b : Int) : List Int := (List.range (b - a + 1).toNat).map fun (i : Nat) => a + i

theorem mem_quorums (a b q : Int) : q ∈ quorums a b ↔ a ≤ q ∧ q ≤ b := by
  unfold quorums
  rw [List.mem_map]
  constructor
  · rintro ⟨i, hi, rfl⟩
    have := List.mem_range.1 hi
    omega
  · rintro ⟨h1, h2⟩
    exact ⟨(q - a).toNat, List.mem_range.2 (by omega), by omega⟩

/-- C148: the table has a row for each quorum, in order, with the time of each run and their mean, rounded down; and all signings came to their end. -/
theorem c148_table (startQuorum endQuorum runs : Int) (dir : Path) (found : Bool) (d : Disk) (play : Nat → Int → Play M) (rows : List Row)
    (h : signMain startQuorum endQuorum runs dir found d play = .table rows) :
    rows = (quorums startQuorum endQuorum).map (fun q => ⟨q, (List.range runs.toNat).map fun r => (play r q).ms,
      ((List.range runs.toNat).map fun r => (play r q).ms).sum / runs.toNat⟩) ∧
    ∀ r < runs.toNat, ∀ q, startQuorum ≤ q → q ≤ endQuorum →
      ∃ seats s, runSign dir d (q - 1) (play r q).m (play r q).events = some (seats, s) ∧ s.status = .finished := by
  unfold signMain at h
  split at h
  · rename_i ha
    have hr : 1 ≤ runs := by
      unfold signArgs at ha
      simp at ha
      omega
    split at h
    · split at h
      · cases h
      · split at h
        · cases h
        · rename_i results hres
          injection h with h
          obtain ⟨hrs, hall⟩ := allRuns_some hres
          constructor
          · rw [← h, hrs]
            obtain ⟨n, hn⟩ : ∃ n, runs.toNat = n + 1 := ⟨runs.toNat - 1, by omega⟩
            unfold printSummary
            rw [hn, List.range_succ_eq_map, List.map_cons]
            dsimp only
            rw [← List.map_cons (f := fun i => List.map (fun q => (q, (play i q).ms)) ((List.range (endQuorum - startQuorum + 1).toNat).map fun (i : Nat) => startQuorum + i)),
              ← List.range_succ_eq_map]
            apply List.ext_getElem?
            intro i
            simp only [List.getElem?_map, List.getElem?_zipIdx, quorums, List.map_map, List.length_map, List.length_range, Function.comp_def]
            rcases hi : (List.range (endQuorum - startQuorum + 1).toNat)[i]? with _ | j
            · simp
            · obtain ⟨h1, h2⟩ := List.getElem?_eq_some_iff.1 hi
              rw [List.getElem_range] at h2
              subst h2
              simp [hi]
          · intro r hr' q h1 h2
            exact hall r (List.mem_range.2 hr') q ((mem_quorums startQuorum endQuorum q).2 ⟨h1, h2⟩)
    · cases h
  · cases h

/-! ## settings -/

/-- C148 (partial; missing: the smallest quorum of the signing tool, see `c148_small_quorum`). Key generation begins only for at least two and at most all parties as a quorum;
signing only for a largest quorum of at least two, at least one run, and a smallest quorum not above the largest. -/
theorem c148_settings_partial (n q a b r : Int) (dir : Path) (found : Bool) (d : Disk) (play : Nat → Int → Play M) :
    (genArgs n q = true ↔ 2 ≤ q ∧ q ≤ n) ∧
    (signMain a b r dir found d play ≠ .refused ↔ (2 ≤ b ∧ 1 ≤ r ∧ a ≤ b) ∧ found = true ∧ ∃ raw, Map.get d (fileOf dir (b - 1).toNat) = some raw) := by
  constructor
  · unfold genArgs
    simp
    omega
  · have hs : signArgs a b r = true ↔ (2 ≤ b ∧ 1 ≤ r ∧ a ≤ b) := by
      unfold signArgs
      simp
      omega
    unfold signMain
    split
    · rename_i h
      rw [← hs]
      cases found with
      | false => simp
      | true =>
        simp only [h, if_true, true_and]
        split
        · rename_i hd
          simp only [hd, reduceCtorEq, exists_false, and_false, iff_false, ne_eq, not_true_eq_false, not_false_eq_true]
        · rename_i raw hd
          simp only [hd, Option.some.injEq, exists_eq', iff_true]
          split <;> simp
    · rename_i h
      rw [← hs]
      simp [h]

theorem never (m : Nat) : ∀ (h : List (SignEvent M)) (s : Sign M), s.status ≠ .finished → (h.foldl (signStep [] m) s).status ≠ .finished
  | [], s, hs => hs
  | e :: h, s, hs => by
    rw [List.foldl_cons]
    refine never m h _ ?_
    unfold signStep
    cases hst : s.status with
    | crashed => dsimp only; rw [hst]; simp
    | finished => exact absurd hst hs
    | running =>
      cases e with
      | fail => simp
      | msg x =>
        dsimp only
        split
        · simp
        · simp
      | done r v => simp

/-- C148 is false for the smallest quorum of the signing tool: zero and negative numbers are accepted, and then the tool crashes or waits for ever, whatever files there are. -/
theorem c148_small_quorum (a b r : Int) (ha : a ≤ 0) (hb : 2 ≤ b) (hr : 1 ≤ r) (dir : Path) (d : Disk) (raw : Bytes)
    (hd : Map.get d (fileOf dir (b - 1).toNat) = some raw) (play : Nat → Int → Play M) : signMain a b r dir true d play = .stopped := by
  have h1 : signMain a b r dir true d play ≠ .refused := (c148_settings_partial a a a b r dir true d play).2.2 ⟨⟨hb, hr, by omega⟩, rfl, raw, hd⟩
  cases h : signMain a b r dir true d play with
  | refused => exact absurd h h1
  | stopped => rfl
  | table rows =>
    exfalso
    obtain ⟨-, hall⟩ := c148_table a b r dir true d play rows h
    obtain ⟨seats, s, h2, h3⟩ := hall 0 (by omega) a le_rfl (by omega)
    unfold runSign at h2
    split at h2
    · rename_i keys ids hload
      split at h2
      · cases h2
      · rename_i hl
        have hk : keys = [] := List.length_eq_zero_iff.1 (by omega)
        subst hk
        obtain ⟨-, rfl⟩ := Prod.mk.inj (Option.some.inj h2)
        exact never _ _ _ (by simp) h3
    · cases h2

/-! ## a case -/

def base : JsonState.Pt := ⟨((0x79BE667EF9DCBBAC55A06295CE870B07029BFCDB2DCE28D959F2815B16F81798 : Int), 0x483ADA7726A3C4655DA4FBFC0E1108A8FD17B448A68554199C47D08FFB10D4B8), by decide +kernel⟩

def share3 : SaveData := { xi := some 1, shareID := some 3, ks := [some 3, some 5], ecdsaPub := some base }
def share5 : SaveData := { xi := some 2, shareID := some 5, ks := [some 3, some 5], ecdsaPub := some base }

theorem two_shares : Shares [3, 5] [share3, share5] where
  increasing := by decide
  length := rfl
  own := by
    intro i s h
    match i, h with
    | 0, h => exact ⟨3, rfl, by obtain rfl := Option.some.inj h; rfl⟩
    | 1, h => exact ⟨5, rfl, by obtain rfl := Option.some.inj h; rfl⟩
  all := by
    intro s h
    simp only [List.mem_cons, List.not_mem_nil, or_false] at h
    rcases h with rfl | rfl <;> rfl
  public_ := by
    intro s h
    simp only [List.mem_cons, List.not_mem_nil, or_false] at h
    rcases h with rfl | rfl <;> rfl

/-- a broadcast message, the second share, a message for the first party, the first share -/
def events : List (GenEvent Nat) := [.msg ⟨0, none, 7⟩, .done share5 none, .msg ⟨1, some [0], 8⟩, .done share3 none]

theorem two_works : Works [share3, share5] events where
  once := List.Perm.swap _ _ _
  sound := by simp [events]
  others := by
    intro m h
    simp only [events, List.mem_cons, GenEvent.msg.injEq, reduceCtorEq, List.not_mem_nil, or_false, false_or] at h
    rcases h with rfl | rfl
    · exact Or.inl rfl
    · exact Or.inr ⟨0, [], rfl, by decide, by decide⟩
  files := by
    intro d f h
    simp only [events, List.mem_cons, GenEvent.done.injEq, reduceCtorEq, List.not_mem_nil, or_false, false_or] at h
    rcases h with ⟨-, h⟩ | ⟨-, h⟩ <;> exact h

/-- the shares are found in their files although the second party was the first to finish; and the table is printed if both parties report the signature (with the key 1 and the
number 1 as a nonce) of the number 5 -/
example : (runKeyGen ["d"] 2 [] events).status = .finished ∧ ∃ seats s, runSign (M := Nat) ["d"] (runKeyGen ["d"] 2 [] events).disk ((2 : Nat) - 1 : Int) 9 [] = some (seats, s) ∧
    seats.map Prod.snd = [share3, share5] := by
  obtain ⟨h1, seats, s, h2, h3, -⟩ := c148_own_share [3, 5] _ two_shares (by simp) events two_works ["d"] [] (fun _ => rfl) 2 (by simp) 9 []
  exact ⟨h1, seats, s, h2, h3⟩

/-- the signature of 5 with the key 1 and the nonce 1 -/
def sigR : Nat := 0x79BE667EF9DCBBAC55A06295CE870B07029BFCDB2DCE28D959F2815B16F81798 % secp256k1N

example : let d := (runKeyGen ["d"] 2 [] events).disk
    let ev : List (SignEvent Nat) := [.msg ⟨0, some [1], 4⟩, .done [] [], .done (Bytes.ofNat sigR) (Bytes.ofNat ((5 + sigR) % secp256k1N))]
    signMain 2 2 2 ["d"] true d (fun r _ => ⟨5, ev, 10 + 5 * r⟩) = .table [⟨2, [10, 15], 12⟩] ∧
    signMain 2 2 2 ["d"] true d (fun r _ => ⟨6, ev, 10 + 5 * r⟩) = .stopped ∧
    signMain 0 2 2 ["d"] true d (fun r _ => ⟨5, ev, 10 + 5 * r⟩) = .stopped ∧
    signMain 2 3 2 ["d"] true d (fun r _ => ⟨5, ev, 10 + 5 * r⟩) = .refused := by
  decide +kernel

end Verif.Props.Benchmark
