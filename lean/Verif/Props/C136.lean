import Verif.Model.JsonState
import Verif.Props.C135
import Verif.Props.C115_C116

set_option linter.unusedSectionVars false

/-!
# C136: the files of key shares
-/
namespace Verif.Props.JsonStorage
open Verif.MsgId (Str)
open Verif.Go Verif.Json Verif.JsonMsg Verif.JsonHttp Verif.JsonState Verif.Spec.Json Verif.Props.JsonTexts Verif.Props.JsonMessages Verif.Props.JsonReading
open Verif.Props.JsonHttp (says_str)
open Verif.Server (LocalState)
open Verif.Storage

/-! ## an object that is cut off is no text -/

theorem enc_high (c : Char) (h : 2 ≤ (String.utf8EncodeChar c).length) : ∀ x ∈ String.utf8EncodeChar c, 128 ≤ x.toNat := by
  unfold String.utf8EncodeChar at h ⊢
  dsimp only at h ⊢
  split
  · rename_i h1
    rw [if_pos h1] at h
    simp at h
  · split
    · simp only [List.forall_mem_cons, UInt8.toNat_ofNat']
      refine ⟨by omega, by omega, fun _ h => by cases h⟩
    · split
      · simp only [List.forall_mem_cons, UInt8.toNat_ofNat']
        refine ⟨by omega, by omega, by omega, fun _ h => by cases h⟩
      · simp only [List.forall_mem_cons, UInt8.toNat_ofNat']
        refine ⟨by omega, by omega, by omega, by omega, fun _ h => by cases h⟩

theorem enc_low (c : Char) (h : c.toNat < 128) : String.utf8EncodeChar c = [UInt8.ofNat c.toNat] := by
  unfold String.utf8EncodeChar
  dsimp only
  rw [if_pos (show c.val.toNat ≤ 127 by have : c.toNat = c.val.toNat := rfl; omega)]
  rfl

/-- a prefix of the bytes of a text ends between two characters, or with a byte which is no ASCII character -/
theorem cut (t : Str) (n : Nat) (h : n < (utf8 t).length) :
    (∃ t1 t2, t = t1 ++ t2 ∧ t2 ≠ [] ∧ (utf8 t).take n = utf8 t1) ∨ ∃ b x, (utf8 t).take n = b ++ [x] ∧ 128 ≤ x.toNat := by
  induction t generalizing n with
  | nil => simp [utf8] at h
  | cons c t ih =>
    have e : utf8 (c :: t) = String.utf8EncodeChar c ++ utf8 t := by simp [utf8]
    rw [e] at h ⊢
    by_cases h1 : (String.utf8EncodeChar c).length ≤ n
    · rw [List.take_append, List.take_of_length_le h1]
      rcases ih (n - (String.utf8EncodeChar c).length) (by simp only [List.length_append] at h; omega) with ⟨t1, t2, h2, h3, h4⟩ | ⟨b, x, h2, h3⟩
      · refine .inl ⟨c :: t1, t2, by rw [h2]; rfl, h3, ?_⟩
        rw [h4]
        simp [utf8]
      · exact .inr ⟨_, x, by rw [h2, ← List.append_assoc], h3⟩
    · rw [List.take_append_of_le_length (by omega)]
      cases n with
      | zero => exact .inl ⟨[], c :: t, rfl, by simp, rfl⟩
      | succ n =>
        have hne : (String.utf8EncodeChar c).take (n + 1) ≠ [] := by
          intro h'
          have := congrArg List.length h'
          simp only [List.length_take, List.length_nil] at this
          omega
        refine .inr ⟨_, _, (List.dropLast_append_getLast hne).symm, enc_high c (by omega) _ (List.mem_of_mem_take (List.getLast_mem hne))⟩

/-- the last character of bytes that end with a byte which is no ASCII character -/
theorem high_end {b : Bytes} {s : Str} (h : Runes b s) : ∀ a x, b = a ++ [x] → 128 ≤ x.toNat → ∃ u c, s = u ++ [c] ∧ 128 ≤ c.toNat := by
  induction h with
  | nil => intro a x h; simp at h
  | @char b s c h ih =>
    intro a x e hx
    rcases List.eq_nil_or_concat b with rfl | ⟨b', y, rfl⟩
    · obtain rfl : s = [] := (runes_complete h).symm
      refine ⟨[], c, rfl, ?_⟩
      by_contra hc
      rw [enc_low c (by omega), List.append_nil] at e
      have hl := congrArg List.getLast? e
      simp at hl
      rw [← hl, UInt8.toNat_ofNat'] at hx
      omega
    · rw [List.concat_eq_append, ← List.append_assoc] at e
      obtain ⟨-, e2⟩ := List.append_inj' e rfl
      cases e2
      obtain ⟨u, d, rfl, hd⟩ := ih b' x (by simp) hx
      exact ⟨c :: u, d, rfl, hd⟩
  | @bad b s y hb h ih =>
    intro a x e hx
    rcases List.eq_nil_or_concat b with rfl | ⟨b', z, rfl⟩
    · obtain rfl : s = [] := (runes_complete h).symm
      exact ⟨[], '\ufffd', rfl, by decide⟩
    · rw [List.concat_eq_append, ← List.cons_append] at e
      obtain ⟨-, e2⟩ := List.append_inj' e rfl
      cases e2
      obtain ⟨u, d, rfl, hd⟩ := ih b' x (by simp) hx
      exact ⟨'\ufffd' :: u, d, rfl, hd⟩

theorem brace {j : J} {t r : Str} (h : IsValue j t) (e : t = '{' :: r) : (∃ u, t = u ++ ['}']) ∧ ∀ n, j ≠ .num n := by
  cases h with
  | null => cases e
  | true => cases e
  | false => cases e
  | num h =>
    obtain ⟨c, x, hx⟩ := number_ne h
    have := number_head (number_chars h c (by simp [hx]))
    rw [hx] at e
    cases e
    exact absurd rfl this.2.2.2.1
  | str h =>
    obtain ⟨s, h1, -⟩ := string_complete h []
    rw [List.append_nil, e] at h1
    cases h1
  | arrNil => cases e
  | arr => cases e
  | objNil => exact ⟨⟨'{' :: _, rfl⟩, fun _ h => by cases h⟩
  | obj => exact ⟨⟨'{' :: _, rfl⟩, fun _ h => by cases h⟩

/-- Bytes of an object that are cut off somewhere are not the text of anything. -/
theorem c136_cut {j : J} {t r : Str} (h : IsValue j t) (e : t = '{' :: r) (n : Nat) (hn : n < (utf8 t).length) : parse (runes ((utf8 t).take n)) = none := by
  match hp : parse (runes ((utf8 t).take n)) with
  | none => rfl
  | some j' =>
    exfalso
    obtain ⟨w, v, w', h1, h2, h3, h4⟩ := (c132_text _ _).1 hp
    obtain ⟨c, x, hv, hc, -⟩ := value_head h3
    have hfirst : n = 0 ∨ ∃ s, runes ((utf8 t).take n) = '{' :: s := by
      cases n with
      | zero => exact .inl rfl
      | succ n =>
        right
        have e' : (utf8 t).take (n + 1) = utf8 ['{'] ++ (utf8 r).take n := by
          rw [e]
          simp [utf8, enc_low '{' (by decide)]
        rw [e', JsonHttp.runes_append]
        exact ⟨_, rfl⟩
    have hw : w = [] ∧ c = '{' := by
      rcases hfirst with rfl | ⟨s, hs⟩
      · rw [List.take_zero, show runes [] = [] from rfl, hv] at h1
        simp at h1
      · rw [hs] at h1
        cases w with
        | nil =>
          rw [hv] at h1
          simp only [List.nil_append, List.cons_append] at h1
          cases h1
          exact ⟨rfl, rfl⟩
        | cons d w =>
          simp only [List.cons_append] at h1
          cases h1
          exact absurd (h2 '{' (by simp)) (by decide)
    obtain ⟨rfl, rfl⟩ := hw
    rw [List.nil_append] at h1
    obtain ⟨⟨u, hu⟩, hnum⟩ := brace h3 hv
    rcases cut t n hn with ⟨t1, t2, ht, ht2, ht1⟩ | ⟨b, y, hb, hy⟩
    · rw [ht1, c132_written] at h1
      have hlen : v.length < (t.length + 1) := by rw [ht, h1]; simp
      have a1 := value_complete (t.length + 1) j' v hlen h3 [] (w' ++ t2) (by intro _ h; cases h) (by rintro ⟨q, rfl⟩; exact absurd rfl (hnum q))
      have a2 := value_complete (t.length + 1) j t (by omega) h [] [] (by intro _ h; cases h) (by rintro ⟨q, rfl⟩; exact absurd rfl ((brace h e).2 q))
      rw [List.nil_append, List.append_nil] at a2
      rw [List.nil_append, ← List.append_assoc, ← h1, ← ht, a2] at a1
      simp only [Option.some.injEq, Prod.mk.injEq] at a1
      have := a1.2
      simp at this
      exact ht2 this.2
    · obtain ⟨s, d, hs, hd⟩ := high_end ((c132_characters _ _).1 rfl) b y hb hy
      rw [hs] at h1
      rcases List.eq_nil_or_concat w' with rfl | ⟨w'', z, rfl⟩
      · rw [List.append_nil, hu] at h1
        obtain ⟨-, e2⟩ := List.append_inj' h1 rfl
        cases e2
        revert hd; decide
      · rw [List.concat_eq_append, ← List.append_assoc] at h1
        obtain ⟨-, e2⟩ := List.append_inj' h1 rfl
        cases e2
        have := h4 d (by simp)
        simp only [List.mem_cons, List.not_mem_nil, or_false] at this
        rcases this with rfl | rfl | rfl | rfl <;> revert hd <;> decide

/-! ## shares are read as they were written -/

theorem says_big (z n : Int) : Says dBig z n (intText n) := by
  refine ⟨.num (intText n), c132_number n, ?_⟩
  show parseBig (intText n) = some n
  cases n with
  | ofNat n =>
    obtain ⟨c, r, e, hc⟩ := nat_minus n
    have hd := decimal_nat n
    have ha : (natText n).all Char.isDigit = true := by rw [List.all_eq_true]; exact nat_digits n
    show parseBig (natText n) = _
    rw [e] at hd ha ⊢
    unfold parseBig
    dsimp only
    rw [if_neg hc, if_pos ha, hd]
    rfl
  | negSucc n =>
    have hd := decimal_nat (n + 1)
    have ha : (natText (n + 1)).all Char.isDigit = true := by rw [List.all_eq_true]; exact nat_digits _
    show parseBig ('-' :: natText (n + 1)) = _
    unfold parseBig
    dsimp only
    rw [if_pos rfl, if_pos ha, hd]
    rfl

theorem says_num (old o : Big) : Says dNum old o (numText o) :=
  says_ptr (fun a _ => says_big _ a) fun a j _ hj => by
    rintro rfl
    have h1 := parse_value hj
    rw [parse_value (c132_number a)] at h1
    cases h1

theorem says_slice {α : Type} {d : Dec α} {zero : α} {text : α → Str} (l : List α) (h : ∀ a ∈ l, Says d zero a (text a)) :
    Says (dList zero d) [] l (sliceText text l) := by
  unfold sliceText
  cases l with
  | nil => exact ⟨.null, .null, rfl⟩
  | cons a l => exact says_list h

theorem says_two (x y : Int) : Says dTwo (none, none) (some x, some y) (arrText [intText x, intText y]) := by
  obtain ⟨j, h1, h2⟩ := says_num none (some x)
  obtain ⟨j', h3, h4⟩ := says_num none (some y)
  refine ⟨.arr [j, j'], ?_, ?_⟩
  · refine arr_value (l := [(j, intText x), (j', intText y)]) ?_
    simp only [List.forall_mem_cons]
    exact ⟨h1, h3, fun _ h => by cases h⟩
  · simp [dTwo, h2, h4]

theorem says_point (old o : Option Pt) : Says dPoint old o (ptrText pointText o) := by
  cases o with
  | none => exact ⟨.null, .null, rfl⟩
  | some p =>
    obtain ⟨⟨x, y⟩, hp⟩ := p
    have h : Reads coordFields [("Coords", arrText [intText x, intText y])] (none, none) (some x, some y) := .cons _ rfl (says_field (says_two x y)) (.nil _)
    obtain ⟨j, h1, h2, m, rfl⟩ := says_struct h
    refine ⟨_, h1, ?_⟩
    simp only [dPoint, h2]
    exact dif_pos hp

theorem says_priv (old o : Option PrivateKey) (ho : old = none) : Says (dPtr {} (dStruct privFields)) old o (ptrText privText o) := by
  subst ho
  refine says_ptr (fun k _ => ?_) fun _ _ _ hj => obj_not_null hj
  obtain ⟨n, l, p⟩ := k
  exact says_obj (.cons _ rfl (says_field (says_num _ _)) (.cons _ rfl (says_field (says_num _ _)) (.cons _ rfl (says_field (says_num _ _)) (.nil _))))

theorem says_pub (o : Option Big) : Says (dPtr none (dStruct pubFields)) none o (ptrText pubText o) :=
  says_ptr (fun _ _ => says_obj (.cons _ rfl (says_field (says_num _ _)) (.nil _))) fun _ _ _ hj => obj_not_null hj

theorem says_data (s : SaveData) : Says (dStruct dataFields) {} s (dataText s) := by
  obtain ⟨a, b, c, d, e, f, g, h, i, j, k, l, m, n, o, p, q⟩ := s
  unfold dataText
  refine says_obj ?_
  refine .cons _ rfl (says_field (says_priv _ _ rfl)) ?_
  iterate 9 refine .cons _ rfl (says_field (says_num _ _)) ?_
  iterate 4 refine .cons _ rfl (says_field (says_slice _ fun a _ => says_num _ a)) ?_
  refine .cons _ rfl (says_field (says_slice _ fun a _ => says_point _ a)) ?_
  refine .cons _ rfl (says_field (says_slice _ fun a _ => says_pub a)) ?_
  exact .cons _ rfl (says_field (says_point _ _)) (.nil _)

theorem reads_state (s : LocalState SaveData) : Reads stateFields [("pub_key", quote s.pubKey), ("local_data", dataText s.localData),
    ("participant_keys", sliceText quote s.participantKeys), ("local_party_key", quote s.localPartyKey)] noState s := by
  obtain ⟨k, l, ks, o⟩ := s
  exact .cons _ rfl (says_field (says_str _ _)) (.cons _ rfl (says_field (says_data l)) (.cons _ rfl (says_field (says_slice ks fun a _ => says_str _ a))
    (.cons _ rfl (says_field (says_str _ _)) (.nil _))))

/-- **C136**: what is written into the file of a key is read as exactly the share that was saved -/
theorem c136_state (s : LocalState SaveData) : readState (utf8 (stateText s)) = some s := unmarshal_says (says_obj (reads_state s))

def stateParts : List (JsonReading.Part (LocalState SaveData)) :=
  [⟨Str, "pub_key", LocalState.pubKey, fun s x => { s with pubKey := x }, dStr⟩,
   ⟨SaveData, "local_data", LocalState.localData, fun s x => { s with localData := x }, dStruct dataFields⟩,
   ⟨List Str, "participant_keys", LocalState.participantKeys, fun s x => { s with participantKeys := x }, dList [] dStr⟩,
   ⟨Str, "local_party_key", LocalState.localPartyKey, fun s x => { s with localPartyKey := x }, dStr⟩]

theorem stateStruct : Struct stateParts where
  names := List.pairwise_map.1 (by decide +kernel : (stateParts.map fun p => p.name.toList).Pairwise fun a b => ¬ SameName a b)
  own := by simp [stateParts]
  other := by simp [stateParts]
  all a b h := by
    cases a; cases b
    simp only [stateParts, List.forall_mem_cons] at h
    simp_all

/-- A file is read exactly if it is the text of an object (or `null`) whose members for the four fields can be read. -/
theorem c136_file (raw : Bytes) (s : LocalState SaveData) : readState raw = some s ↔ ∃ j, IsText j (runes raw) ∧ ((j = .null ∧ s = noState) ∨ ∃ l, j = .obj l ∧
    readAll dStr (valuesFor "pub_key" l) [] = some s.pubKey ∧ readAll (dStruct dataFields) (valuesFor "local_data" l) {} = some s.localData ∧
    readAll (dList [] dStr) (valuesFor "participant_keys" l) [] = some s.participantKeys ∧
    readAll dStr (valuesFor "local_party_key" l) [] = some s.localPartyKey) := by
  unfold readState
  rw [unmarshal_iff]
  refine exists_congr fun j => and_congr_right fun _ => ?_
  rw [show stateFields = stateParts.map JsonReading.Part.slot from rfl, struct_iff stateStruct]
  simp [stateParts, noState]

def dataParts : List (JsonReading.Part SaveData) :=
  [⟨Option PrivateKey, "PaillierSK", SaveData.paillierSK, fun s x => { s with paillierSK := x }, dPtr {} (dStruct privFields)⟩,
   ⟨Big, "NTildei", SaveData.ntildei, fun s x => { s with ntildei := x }, dNum⟩,
   ⟨Big, "H1i", SaveData.h1i, fun s x => { s with h1i := x }, dNum⟩,
   ⟨Big, "H2i", SaveData.h2i, fun s x => { s with h2i := x }, dNum⟩,
   ⟨Big, "Alpha", SaveData.alpha, fun s x => { s with alpha := x }, dNum⟩,
   ⟨Big, "Beta", SaveData.beta, fun s x => { s with beta := x }, dNum⟩,
   ⟨Big, "P", SaveData.p, fun s x => { s with p := x }, dNum⟩,
   ⟨Big, "Q", SaveData.q, fun s x => { s with q := x }, dNum⟩,
   ⟨Big, "Xi", SaveData.xi, fun s x => { s with xi := x }, dNum⟩,
   ⟨Big, "ShareID", SaveData.shareID, fun s x => { s with shareID := x }, dNum⟩,
   ⟨List Big, "Ks", SaveData.ks, fun s x => { s with ks := x }, dList none dNum⟩,
   ⟨List Big, "NTildej", SaveData.ntildej, fun s x => { s with ntildej := x }, dList none dNum⟩,
   ⟨List Big, "H1j", SaveData.h1j, fun s x => { s with h1j := x }, dList none dNum⟩,
   ⟨List Big, "H2j", SaveData.h2j, fun s x => { s with h2j := x }, dList none dNum⟩,
   ⟨List (Option Pt), "BigXj", SaveData.bigXj, fun s x => { s with bigXj := x }, dList none dPoint⟩,
   ⟨List (Option Big), "PaillierPKs", SaveData.paillierPKs, fun s x => { s with paillierPKs := x }, dList none (dPtr none (dStruct pubFields))⟩,
   ⟨Option Pt, "ECDSAPub", SaveData.ecdsaPub, fun s x => { s with ecdsaPub := x }, dPoint⟩]

theorem dataStruct : Struct dataParts where
  names := List.pairwise_map.1 (by decide +kernel : (dataParts.map fun p => p.name.toList).Pairwise fun a b => ¬ SameName a b)
  own := by simp [dataParts]
  other := by simp [dataParts]
  all a b h := by
    cases a; cases b
    simp only [dataParts, List.forall_mem_cons] at h
    simp_all

/-- The share in a file is read exactly if it is an object (or `null`) whose members for the fields of tss-lib can be read. -/
theorem c136_data (j : J) (old s : SaveData) : dStruct dataFields j old = some s ↔ (j = .null ∧ s = old) ∨ ∃ l, j = .obj l ∧
      readAll (dPtr {} (dStruct privFields)) (valuesFor "PaillierSK" l) old.paillierSK = some s.paillierSK ∧
      readAll dNum (valuesFor "NTildei" l) old.ntildei = some s.ntildei ∧
      readAll dNum (valuesFor "H1i" l) old.h1i = some s.h1i ∧
      readAll dNum (valuesFor "H2i" l) old.h2i = some s.h2i ∧
      readAll dNum (valuesFor "Alpha" l) old.alpha = some s.alpha ∧
      readAll dNum (valuesFor "Beta" l) old.beta = some s.beta ∧
      readAll dNum (valuesFor "P" l) old.p = some s.p ∧
      readAll dNum (valuesFor "Q" l) old.q = some s.q ∧
      readAll dNum (valuesFor "Xi" l) old.xi = some s.xi ∧
      readAll dNum (valuesFor "ShareID" l) old.shareID = some s.shareID ∧
      readAll (dList none dNum) (valuesFor "Ks" l) old.ks = some s.ks ∧
      readAll (dList none dNum) (valuesFor "NTildej" l) old.ntildej = some s.ntildej ∧
      readAll (dList none dNum) (valuesFor "H1j" l) old.h1j = some s.h1j ∧
      readAll (dList none dNum) (valuesFor "H2j" l) old.h2j = some s.h2j ∧
      readAll (dList none dPoint) (valuesFor "BigXj" l) old.bigXj = some s.bigXj ∧
      readAll (dList none (dPtr none (dStruct pubFields))) (valuesFor "PaillierPKs" l) old.paillierPKs = some s.paillierPKs ∧
      readAll dPoint (valuesFor "ECDSAPub" l) old.ecdsaPub = some s.ecdsaPub := by
  rw [show dataFields = dataParts.map JsonReading.Part.slot from rfl, struct_iff dataStruct]
  simp [dataParts]

def coordParts : List (JsonReading.Part (Big × Big)) := [⟨Big × Big, "Coords", id, fun _ x => x, dTwo⟩]

theorem coordStruct : Struct coordParts where
  names := by simp [coordParts]
  own := by simp [coordParts]
  other := by simp [coordParts]
  all a b h := by simpa [coordParts] using h

/-- A point is read exactly if it is `null` or an object with two numbers that are the coordinates of a point on the curve: points that are not on the curve are refused. -/
theorem c136_point (j : J) (old o : Option Pt) : dPoint j old = some o ↔ (j = .null ∧ o = none) ∨ ∃ l x y, j = .obj l ∧
    readAll dTwo (valuesFor "Coords" l) (none, none) = some (some x, some y) ∧ ∃ h : Curve.isOnCurve x.natAbs y.natAbs = true, o = some ⟨(x, y), h⟩ := by
  have hs : ∀ j s, dStruct coordFields j (none, none) = some s ↔ (j = .null ∧ s = (none, none)) ∨ ∃ l, j = .obj l ∧ readAll dTwo (valuesFor "Coords" l) (none, none) = some s := by
    intro j s
    rw [show coordFields = coordParts.map JsonReading.Part.slot from rfl, struct_iff coordStruct]
    simp [coordParts]
  by_cases hj : j = .null
  · subst hj
    have e : dPoint .null old = some none := rfl
    rw [e]
    constructor
    · intro h
      exact Or.inl ⟨rfl, (Option.some.inj h).symm⟩
    · rintro (⟨-, h⟩ | ⟨l, x, y, h, -⟩)
      · rw [h]
      · cases h
  · have e : dPoint j old = match dStruct coordFields j (none, none) with
        | some (some x, some y) => if h : Curve.isOnCurve x.natAbs y.natAbs = true then some (some ⟨(x, y), h⟩) else none
        | _ => none := by
      cases j <;> first | exact absurd rfl hj | rfl
    rw [e]
    constructor
    · intro h
      split at h
      · rename_i x y hxy
        split at h
        · rename_i hc
          rcases (hs j _).1 hxy with ⟨h1, -⟩ | ⟨l, h1, h2⟩
          · exact absurd h1 hj
          · exact Or.inr ⟨l, x, y, h1, h2, hc, (Option.some.inj h).symm⟩
        · cases h
      · cases h
    · rintro (⟨h, -⟩ | ⟨l, x, y, h1, h2, h3, h4⟩)
      · exact absurd h hj
      · rw [(hs j (some x, some y)).2 (Or.inr ⟨l, h1, h2⟩)]
        dsimp only
        rw [dif_pos h3, h4]

/-- a file with the point (1, 1) is refused, and so is one with a single coordinate -/
example : (readState (utf8 "{\"local_data\":{\"ECDSAPub\":{\"Coords\":[1,1]}}}".toList)).isNone ∧
    (readState (utf8 "{\"local_data\":{\"BigXj\":[null,{\"Coords\":[1]}]}}".toList)).isNone ∧
    ((readState (utf8 "{\"local_data\":{\"BigXj\":[null]}}".toList)).any fun s => s.localData.bigXj.length = 1) = true := by
  decide +kernel

/-- A file that was cut off anywhere while it was written is never read, as whatever share. -/
theorem c136_torn (s : LocalState SaveData) (n : Nat) (hn : n < (utf8 (stateText s)).length) : readState ((utf8 (stateText s)).take n) = none := by
  obtain ⟨j, h1, -⟩ := says_struct (reads_state s)
  unfold readState unmarshal
  rw [c136_cut (t := stateText s) h1 rfl n hn]
  rfl

/-- What C52, C54, C56, C79, C81, C114 and others assume of storage holds with these files. -/
theorem c136_good : Storage.Good storageEnv Bech32.accPubPrefix :=
  KeyTexts.c115_storage_good storageEnv (fun _ => rfl) fun s b h => by
    have e1 : storageEnv.enc = fun s => some (utf8 (stateText s)) := rfl
    have e2 : storageEnv.dec = readState := rfl
    rw [e1] at h
    rw [e2, ← Option.some.inj h]
    exact c136_state s

/-! ## histories with crashes -/

/-- Specification: the file of a key after a history of calls: the share of the last call for this key that got as far as opening the file, and whether its
write was completed -/
def lastWritten {A Q : Type} (k : String) (h : List (Op (LocalState SaveData) A Q)) : Option (LocalState SaveData × Bool) :=
  h.foldl (fun last op => match op with
    | .save s f => if keyOf s = k then (match f with
      | none => some (s, true)
      | some .open_ => last
      | some (.after n) => some (s, decide ((utf8 (stateText s)).length ≤ n))) else last
    | .book _ _ _ => last) none

/-- After any history of calls, each of which may fail or be interrupted by a crash at any byte, the share of a key is the one of the last call that opened
its file, if that call wrote all of it, and otherwise it cannot be read. -/
theorem c136_history {A Q : Type} (aenv : AddrEnv A Q) (dir : Path) (d : Disk) (h : List (Op (LocalState SaveData) A Q)) (k : String)
    (hk : Curve.CheckKeyOnCurve Bech32.decodeKey k.toList = .ok true) :
    GetLocalState storageEnv dir k (run storageEnv aenv keyOf dir d h) =
      match lastWritten k h with
      | none => GetLocalState storageEnv dir k d
      | some (s, true) => .ok s
      | some (_, false) => .err "fail to unmarshal KeygenLocalState" := by
  induction h using List.reverseRecOn with
  | nil => rfl
  | append_singleton h op ih =>
    have hr : run storageEnv aenv keyOf dir d (h ++ [op]) = (apply storageEnv aenv keyOf dir (run storageEnv aenv keyOf dir d h) op).1 := by
      simp [Storage.run]
    rw [hr]
    generalize run storageEnv aenv keyOf dir d h = d' at ih
    cases op with
    | book σ b f =>
      have e : lastWritten k (h ++ [.book σ b f]) = lastWritten k h := by simp [lastWritten]
      rw [e, ← ih]
      exact (Storage.c54_independence c136_good aenv keyOf dir d').2.2 σ b f k
    | save s f =>
      by_cases hs : keyOf s = k
      · have hp := Storage.getFilePathName_ok c136_good dir (k := k) hk
        have hne : k ≠ "" := Storage.key_ne (c136_good.key k hk)
        have hsave : (apply storageEnv aenv keyOf dir d' (.save s f)).1 = (writeFile d' (dir ++ [localFileName k]) (utf8 (stateText s)) f).1 := by
          show (SaveLocalState storageEnv keyOf dir s f d').1 = _
          unfold SaveLocalState
          rw [hs, hp]
          rfl
        have hget : ∀ d, GetLocalState storageEnv dir k d = match Map.get d (dir ++ [localFileName k]) with
            | none => .err "not exist"
            | some buf => match readState buf with
              | none => .err "fail to unmarshal KeygenLocalState"
              | some s => .ok s := by
          intro d
          have e : storageEnv.dec = readState := rfl
          unfold GetLocalState
          rw [if_neg (by simpa using hne), hp]
          simp only [e]
          cases Map.get d (dir ++ [localFileName k]) with
          | none => rfl
          | some b =>
            dsimp only
            cases readState b <;> rfl
        rw [hsave]
        match f with
        | none =>
          have e : lastWritten k (h ++ [.save s none]) = some (s, true) := by simp [lastWritten, hs]
          rw [e, hget]
          simp [writeFile, Map.get_set_self, c136_state]
        | some .open_ =>
          have e : lastWritten k (h ++ [.save s (some .open_)]) = lastWritten k h := by simp [lastWritten]
          rw [e, ← ih]
          rfl
        | some (.after n) =>
          by_cases hn : n < (utf8 (stateText s)).length
          · have e : lastWritten k (h ++ [.save s (some (.after n))]) = some (s, false) := by
              simp [lastWritten, hs]
              omega
            rw [e, hget]
            simp [writeFile, hn, Map.get_set_self, c136_torn s n hn]
          · have e : lastWritten k (h ++ [.save s (some (.after n))]) = some (s, true) := by
              simp [lastWritten, hs]
              omega
            rw [e, hget]
            simp [writeFile, hn, Map.get_set_self, c136_state]
      · have e : lastWritten k (h ++ [.save s f]) = lastWritten k h := by simp [lastWritten, hs]
        rw [e, ← ih]
        exact (Storage.c54_independence c136_good aenv keyOf dir d').1 s f k (Ne.symm hs)

/-- So a node that starts with an empty folder never reads a share it did not save under this key, whatever crashes. -/
theorem c136_never_wrong {A Q : Type} (aenv : AddrEnv A Q) (dir : Path) (h : List (Op (LocalState SaveData) A Q)) (k : String) (s : LocalState SaveData)
    (hs : GetLocalState storageEnv dir k (run storageEnv aenv keyOf dir [] h) = .ok s) : keyOf s = k ∧ ∃ f, .save s f ∈ h ∧ f ≠ some .open_ := by
  have hk : Curve.CheckKeyOnCurve Bech32.decodeKey k.toList = .ok true := by
    cases hp : getFilePathName storageEnv dir k with
    | ok p => exact Storage.getFilePathName_eq hp
    | err e =>
      unfold GetLocalState at hs
      rw [hp] at hs
      split at hs <;> simp at hs
    | panic =>
      unfold GetLocalState at hs
      rw [hp] at hs
      split at hs <;> simp at hs
  rw [c136_history aenv dir [] h k hk] at hs
  have key : ∀ x, lastWritten k h = some x → keyOf x.1 = k ∧ ∃ f, .save x.1 f ∈ h ∧ f ≠ some .open_ := by
    clear hs
    induction h using List.reverseRecOn with
    | nil => intro x hx; simp [lastWritten] at hx
    | append_singleton h op ih =>
      intro x hx
      have old : lastWritten k h = some x → keyOf x.1 = k ∧ ∃ f, .save x.1 f ∈ h ++ [op] ∧ f ≠ some .open_ := fun hx => by
        obtain ⟨h1, f, h2, h3⟩ := ih x hx
        exact ⟨h1, f, by simp [h2], h3⟩
      cases op with
      | book σ b f => exact old (by simpa [lastWritten] using hx)
      | save s f =>
        by_cases hs : keyOf s = k
        · match f with
          | none =>
            have e : lastWritten k (h ++ [.save s none]) = some (s, true) := by simp [lastWritten, hs]
            rw [e] at hx
            cases hx
            exact ⟨hs, none, by simp, by simp⟩
          | some .open_ => exact old (by simpa [lastWritten] using hx)
          | some (.after n) =>
            have e : lastWritten k (h ++ [.save s (some (.after n))]) = some (s, decide ((utf8 (stateText s)).length ≤ n)) := by simp [lastWritten, hs]
            rw [e] at hx
            cases hx
            exact ⟨hs, some (.after n), by simp, by simp⟩
        · exact old (by simpa [lastWritten, hs] using hx)
  cases hl : lastWritten k h with
  | none =>
    rw [hl] at hs
    dsimp only at hs
    unfold GetLocalState at hs
    split at hs
    · simp at hs
    · split at hs <;> simp [Map.get] at hs
  | some x =>
    rw [hl] at hs
    obtain ⟨y, b⟩ := x
    cases b with
    | false => simp at hs
    | true =>
      simp only [Res.ok.injEq] at hs
      subst hs
      exact key _ hl

/-- C55 fails at every byte: whatever was stored, a crash in the middle of saving a share of the same key leaves nothing that can be read. -/
theorem c136_crash_loses {A Q : Type} (aenv : AddrEnv A Q) (dir : Path) (d : Disk) (h : List (Op (LocalState SaveData) A Q)) (s : LocalState SaveData)
    (hk : Curve.CheckKeyOnCurve Bech32.decodeKey s.pubKey = .ok true) (n : Nat) (hn : n < (utf8 (stateText s)).length) :
    GetLocalState storageEnv dir (keyOf s) (run storageEnv aenv keyOf dir d (h ++ [.save s (some (.after n))])) =
      .err "fail to unmarshal KeygenLocalState" := by
  rw [c136_history aenv dir d _ (keyOf s) (by simpa [keyOf] using hk)]
  have e : lastWritten (keyOf s) (h ++ [.save s (some (.after n))]) = some (s, false) := by
    simp [lastWritten]
    omega
  rw [e]

/-- What is read is not compared with the key that was asked for: any object under the name of a key's file is taken for its share, also one without a
share, or with the share of another key. -/
theorem c136_unchecked (dir : Path) (k : String) (hk : Curve.CheckKeyOnCurve Bech32.decodeKey k.toList = .ok true) (s : LocalState SaveData) :
    GetLocalState storageEnv dir k [(dir ++ [localFileName k], utf8 "{}".toList)] = .ok noState ∧
    GetLocalState storageEnv dir k [(dir ++ [localFileName k], utf8 (stateText s))] = .ok s := by
  have hp := Storage.getFilePathName_ok c136_good dir (k := k) hk
  have hne : k ≠ "" := Storage.key_ne (c136_good.key k hk)
  have hr : readState (utf8 "{}".toList) = some noState := unmarshal_says (says_obj (l := []) (.nil _))
  have hget : ∀ b s, readState b = some s → GetLocalState storageEnv dir k [(dir ++ [localFileName k], b)] = .ok s := by
    intro b s h
    have e : storageEnv.dec = readState := rfl
    unfold GetLocalState
    rw [if_neg (by simpa using hne), hp]
    simp [Map.get, e, h]
  exact ⟨hget _ _ hr, hget _ _ (c136_state s)⟩

/-! ## cases -/

/-- the generator of the curve -/
def gen : Pt := ⟨(0x79BE667EF9DCBBAC55A06295CE870B07029BFCDB2DCE28D959F2815B16F81798, 0x483ADA7726A3C4655DA4FBFC0E1108A8FD17B448A68554199C47D08FFB10D4B8),
  by decide +kernel⟩

def shareData : SaveData where
  paillierSK := some ⟨some 15, some 4, none⟩
  xi := some 5
  ks := [some 1, some 2]
  bigXj := [some gen, none]
  paillierPKs := [some (some 15)]
  ecdsaPub := some gen

def share : LocalState SaveData := ⟨KeyTexts.textG, shareData, [KeyTexts.textG], KeyTexts.textG⟩

example : Curve.CheckKeyOnCurve Bech32.decodeKey share.pubKey = .ok true := by decide +kernel

example : (stateText share).take 133 =
    "{\"pub_key\":\"thorpub1addwnpepqfumuen7l8wthtz45p3ftn58pvrs9xlumvkuu2xet8egzkcklqtesc6p3ea\",\"local_data\":{\"PaillierSK\":{\"N\":15,\"LambdaN\"".toList := by
  decide +kernel

/-- a crash after 100 bytes of a second save, in a folder where the share was stored -/
example : lastWritten (A := Unit) (Q := Unit) (keyOf share) [.save share none] = some (share, true) ∧
    lastWritten (A := Unit) (Q := Unit) (keyOf share) [.save share none, .save share (some (.after 100))] = some (share, false) := by
  have h : 100 < (utf8 (stateText share)).length := by decide +kernel
  exact ⟨by simp [lastWritten], by simp [lastWritten]; omega⟩

end Verif.Props.JsonStorage
