import Verif.Model.Conversion
import Verif.Lemmas.Bytes

namespace Verif.Conversion
open Verif.Go

section
variable {K P : Type}

/-- what the loop of GetParties computes when every key decodes -/
theorem buildParties_ok [DecidableEq K] (dec : K → Option Bytes) (loc : K) (ks : List K) (idx : Nat)
    (h : ∀ k ∈ ks, dec k ≠ none) :
    ∃ l, buildParties dec loc idx ks =
        .ok ((ks.zipIdx idx).map (fun p => newParty p.2 ((dec p.1).getD [])), l) ∧
      (l = none ↔ loc ∉ ks) ∧ (∀ i, l = some i → idx ≤ i ∧ ks[i - idx]? = some loc) := by
  induction ks generalizing idx with
  | nil => exact ⟨none, rfl, by simp, by simp⟩
  | cons k ks ih =>
    obtain ⟨l, h1, h2, h3⟩ := ih (idx + 1) (fun k hk => h k (by simp [hk]))
    have hk := h k (by simp)
    rcases hd : dec k with _ | b
    · exact absurd hd hk
    cases l with
    | none =>
      have hno : loc ∉ ks := h2.1 rfl
      by_cases he : k = loc
      · refine ⟨some idx, ?_, ?_, ?_⟩
        · simp [buildParties, h1, he]; subst he; simp [hd]
        · simp [he]
        · intro i hi; cases hi; simp [he]
      · refine ⟨none, ?_, ?_, ?_⟩
        · simp [buildParties, hd, h1, he]
        · simp [hno, Ne.symm he]
        · simp
    | some j =>
      have := h3 j rfl
      refine ⟨some j, ?_, ?_, ?_⟩
      · simp [buildParties, hd, h1]
      · have : loc ∈ ks := by
          by_contra hh; exact absurd (h2.2 hh) (by simp)
        simp [this]
      · intro i hi
        cases hi
        refine ⟨by omega, ?_⟩
        have e : j - idx = (j - (idx + 1)) + 1 := by omega
        rw [e, List.getElem?_cons_succ]; exact this.2

theorem buildParties_err [DecidableEq K] (dec : K → Option Bytes) (loc : K) (ks : List K) (idx : Nat)
    (h : ∃ k ∈ ks, dec k = none) :
    buildParties dec loc idx ks = .err "fail to get account pub key address" := by
  induction ks generalizing idx with
  | nil => simp at h
  | cons k ks ih =>
    rcases hd : dec k with _ | b
    · simp [buildParties, hd]
    · have : ∃ k ∈ ks, dec k = none := by
        obtain ⟨k', hk', hn⟩ := h
        rcases List.mem_cons.1 hk' with rfl | hk'
        · rw [hd] at hn; cases hn
        · exact ⟨k', hk', hn⟩
      simp [buildParties, hd, ih (idx + 1) this]

/-- the list of parties before sorting: the rank-th key in sorted order becomes party number rank -/
def rawParties [LinearOrder K] (dec : K → Option Bytes) (keys : List K) : List Party :=
  ((keys.insertionSort (· ≤ ·)).zipIdx).map (fun p => newParty p.2 ((dec p.1).getD []))

theorem sortPartyIDs_index (ps : List Party) (i : Nat) (p : Party)
    (h : (sortPartyIDs ps)[i]? = some p) : p.index = i := by
  unfold sortPartyIDs at h
  rw [List.getElem?_map, List.getElem?_zipIdx] at h
  rcases hh : (ps.insertionSort (fun a b => a.keyInt ≤ b.keyInt))[i]? with _ | q
  · rw [hh] at h; simp at h
  · rw [hh] at h; simp at h; rw [← h]

theorem sortPartyIDs_map {β : Type} (f : Party → β) (hf : ∀ p i, f { p with index := i } = f p) (ps : List Party) :
    (sortPartyIDs ps).map f = (ps.insertionSort (fun a b => a.keyInt ≤ b.keyInt)).map f := by
  unfold sortPartyIDs
  apply List.ext_getElem?
  intro i
  simp only [List.getElem?_map, List.getElem?_zipIdx, Option.map_map]
  congr 1
  funext p; simp [hf]

theorem mem_sortPartyIDs {ps : List Party} {p : Party} (h : p ∈ sortPartyIDs ps) :
    ∃ q ∈ ps, p.id = q.id ∧ p.key = q.key ∧ 0 ≤ p.index := by
  unfold sortPartyIDs at h
  rw [List.mem_map] at h
  obtain ⟨⟨q, i⟩, hi, rfl⟩ := h
  rw [List.mem_zipIdx_iff_getElem?] at hi
  refine ⟨q, (List.perm_insertionSort _ ps).mem_iff.1 (List.mem_of_getElem? hi), rfl, rfl, by simp⟩

theorem mem_sortPartyIDs_of {ps : List Party} {q : Party} (h : q ∈ ps) :
    ∃ p ∈ sortPartyIDs ps, p.id = q.id ∧ p.key = q.key ∧ 0 ≤ p.index := by
  have := (List.perm_insertionSort (fun a b : Party => a.keyInt ≤ b.keyInt) ps).mem_iff.2 h
  obtain ⟨i, hi⟩ := List.getElem?_of_mem this
  refine ⟨{ q with index := i }, ?_, rfl, rfl, by simp⟩
  unfold sortPartyIDs
  rw [List.mem_map]
  exact ⟨(q, i), List.mem_zipIdx_iff_getElem?.2 hi, rfl⟩

theorem mem_rawParties [LinearOrder K] (dec : K → Option Bytes) (keys : List K) (q : Party) :
    q ∈ rawParties dec keys ↔ ∃ k i, (keys.insertionSort (· ≤ ·))[i]? = some k ∧ q = newParty i ((dec k).getD []) := by
  unfold rawParties
  rw [List.mem_map]
  constructor
  · rintro ⟨⟨k, i⟩, h, rfl⟩
    rw [List.mem_zipIdx_iff_getElem?] at h
    exact ⟨k, i, h, rfl⟩
  · rintro ⟨k, i, h, rfl⟩
    exact ⟨(k, i), List.mem_zipIdx_iff_getElem?.2 h, rfl⟩

/-- the full description of a GetParties call -/
theorem GetParties_eq [LinearOrder K] (dec : K → Option Bytes) (keys : List K) (loc : K) :
    ((∃ k ∈ keys, dec k = none) ∧ GetParties dec keys loc = .err "fail to get account pub key address") ∨
    ((∀ k ∈ keys, dec k ≠ none) ∧ loc ∉ keys ∧ GetParties dec keys loc = .err "local party is not in the list") ∨
    ((∀ k ∈ keys, dec k ≠ none) ∧ loc ∈ keys ∧ ∃ lp i, lp ∈ sortPartyIDs (rawParties dec keys) ∧ lp.id = i ∧
      (keys.insertionSort (· ≤ ·))[i]? = some loc ∧ lp.key = (newParty i ((dec loc).getD [])).key ∧
      GetParties dec keys loc = .ok (sortPartyIDs (rawParties dec keys), lp)) := by
  have hm : ∀ k, k ∈ keys.insertionSort (· ≤ ·) ↔ k ∈ keys := fun k => (List.perm_insertionSort (· ≤ ·) keys).mem_iff
  by_cases h : ∃ k ∈ keys, dec k = none
  · left
    refine ⟨h, ?_⟩
    obtain ⟨k, hk, hn⟩ := h
    unfold GetParties
    rw [buildParties_err dec loc _ 0 ⟨k, (hm k).2 hk, hn⟩]
  · right
    have hall : ∀ k ∈ keys, dec k ≠ none := fun k hk hn => h ⟨k, hk, hn⟩
    obtain ⟨l, h1, h2, h3⟩ := buildParties_ok dec loc (keys.insertionSort (· ≤ ·)) 0 (fun k hk => hall k ((hm k).1 hk))
    cases l with
    | none =>
      left
      refine ⟨hall, fun hh => (h2.1 rfl) ((hm loc).2 hh), ?_⟩
      unfold GetParties; rw [h1]
    | some i =>
      right
      have hi := (h3 i rfl).2
      simp only [Nat.sub_zero] at hi
      have hmem : loc ∈ keys := (hm loc).1 (List.mem_of_getElem? hi)
      refine ⟨hall, hmem, ?_⟩
      have hraw : newParty i ((dec loc).getD []) ∈ rawParties dec keys := by
        rw [mem_rawParties]; exact ⟨loc, i, hi, rfl⟩
      obtain ⟨p, hp, hpid, hpk, _⟩ := mem_sortPartyIDs_of hraw
      have hfind : ∃ q, (sortPartyIDs (rawParties dec keys)).find? (fun p => p.id = i) = some q := by
        rw [← Option.isSome_iff_exists, List.find?_isSome]
        exact ⟨p, hp, by simpa [newParty] using hpid⟩
      obtain ⟨q, hq⟩ := hfind
      have hqm := List.mem_of_find?_eq_some hq
      have hqi : q.id = i := by simpa using List.find?_some hq
      obtain ⟨r, hr, hrid, hrk, _⟩ := mem_sortPartyIDs hqm
      obtain ⟨k', i', hk', rfl⟩ := (mem_rawParties dec keys r).1 hr
      have hii : i' = i := by rw [← hqi, hrid]; rfl
      subst hii
      rw [hi] at hk'
      cases hk'
      refine ⟨q, i', hqm, hqi, hi, hrk, ?_⟩
      unfold GetParties
      rw [h1]
      have e : ((keys.insertionSort (· ≤ ·)).zipIdx 0).map (fun p => newParty p.2 ((dec p.1).getD [])) =
        rawParties dec keys := rfl
      rw [e]
      simp only [hq]

theorem rawParties_keyInt_nodup [LinearOrder K] (dec : K → Option Bytes) (keys : List K) (hnd : keys.Nodup)
    (hinj : ∀ k ∈ keys, ∀ k' ∈ keys, Bytes.toNat ((dec k).getD []) = Bytes.toNat ((dec k').getD []) → k = k') :
    ((rawParties dec keys).map Party.keyInt).Nodup := by
  have hs : (keys.insertionSort (· ≤ ·)).Nodup := (List.perm_insertionSort (· ≤ ·) keys).nodup_iff.2 hnd
  have hm : ∀ k, k ∈ keys.insertionSort (· ≤ ·) ↔ k ∈ keys := fun k => (List.perm_insertionSort (· ≤ ·) keys).mem_iff
  have e : (rawParties dec keys).map Party.keyInt =
      (keys.insertionSort (· ≤ ·)).map (fun k => Bytes.toNat ((dec k).getD [])) := by
    unfold rawParties
    rw [List.map_map]
    conv_rhs => rw [← List.zipIdx_map_fst 0 (keys.insertionSort (· ≤ ·)), List.map_map]
    congr 1
    funext p
    simp [Party.keyInt, newParty, Bytes.toNat_ofNat]
  rw [e]
  exact List.Nodup.map_on (fun a ha b hb hab => hinj a ((hm a).1 ha) b ((hm b).1 hb) hab) hs

end
end Verif.Conversion
