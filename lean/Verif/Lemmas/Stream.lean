import Verif.Model.Stream
import Mathlib.Tactic.Linarith

namespace Verif.Stream
open Verif.Go

/-- all the bytes a reader can still get -/
def Reader.rest (r : Reader) : Bytes := r.buf ++ r.chunks.flatten

theorem rdRead_spec {c : Nat} (hc : 0 < c) {cs cs' : List Bytes} {d : Bytes} (h : rdRead c cs = some (d, cs')) :
    cs.flatten = d ++ cs'.flatten ∧
    (cs'.map (fun c => c.length + 1)).sum + d.length < (cs.map (fun c => c.length + 1)).sum + 0 + 1 ∧
    (d = [] → (cs'.map (fun c => c.length + 1)).sum < (cs.map (fun c => c.length + 1)).sum) ∧ d.length ≤ c := by
  cases cs with
  | nil => simp [rdRead] at h
  | cons ch rest =>
    simp only [rdRead] at h
    split at h
    · cases h
      simp; omega
    · next hlt =>
      cases h
      refine ⟨?_, ?_, ?_, ?_⟩
      · simp [← List.append_assoc]
      · simp; omega
      · intro he; simp at he; rcases he with he | he <;> (try subst he) <;> simp_all
      · simp

theorem rdRead_none {c : Nat} {cs : List Bytes} : rdRead c cs = none ↔ cs = [] := by
  cases cs with
  | nil => simp [rdRead]
  | cons ch rest => simp only [rdRead]; split <;> simp

theorem bufRead_spec {n : Nat} (hn : 0 < n) {r r' : Reader} {d : Bytes} (h : bufRead n r = some (d, r')) :
    r.rest = d ++ r'.rest ∧ r'.size < r.size ∧ d.length ≤ n := by
  obtain ⟨buf, chunks⟩ := r
  unfold bufRead at h
  cases buf with
  | nil =>
    simp only at h
    split at h
    · next hge =>
      rcases hr : rdRead n chunks with _ | ⟨d', cs⟩
      · rw [hr] at h; cases h
      · rw [hr] at h
        cases h
        obtain ⟨h1, h2, h3, h4⟩ := rdRead_spec hn hr
        refine ⟨by simpa [Reader.rest] using h1, ?_, h4⟩
        simp only [Reader.size, List.length_nil, Nat.zero_add]
        cases d with
        | nil => exact h3 rfl
        | cons x xs => simp at h2; omega
    · next hlt =>
      rcases hr : rdRead bufSize chunks with _ | ⟨d', cs⟩
      · rw [hr] at h; cases h
      · rw [hr] at h
        cases h
        obtain ⟨h1, h2, h3, h4⟩ := rdRead_spec (by decide) hr
        refine ⟨by simp [Reader.rest, h1, ← List.append_assoc], ?_, by simp⟩
        simp only [Reader.size, List.length_nil, Nat.zero_add]
        cases d' with
        | nil => simpa using h3 rfl
        | cons x xs => simp at h2 ⊢; omega
  | cons x xs =>
    simp only at h
    cases h
    refine ⟨by simp [Reader.rest, ← List.append_assoc], ?_, by simp⟩
    simp [Reader.size]; omega

theorem bufRead_none {n : Nat} {r : Reader} (h : bufRead n r = none) : r.rest = [] := by
  obtain ⟨buf, chunks⟩ := r
  unfold bufRead at h
  cases buf with
  | nil =>
    simp only at h
    split at h
    · rcases hr : rdRead n chunks with _ | ⟨d', cs⟩
      · rw [rdRead_none] at hr; simp [Reader.rest, hr]
      · rw [hr] at h; cases h
    · rcases hr : rdRead bufSize chunks with _ | ⟨d', cs⟩
      · rw [rdRead_none] at hr; simp [Reader.rest, hr]
      · rw [hr] at h; cases h
  | cons x xs => simp at h

/-- `io.ReadFull` over a buffered reader returns exactly the next `n` bytes if there are that many, else fails. -/
theorem readFullAux_spec (fuel n : Nat) (r : Reader) (hf : r.size < fuel) :
    (n ≤ r.rest.length ∧ ∃ r', readFullAux fuel n r = some (r.rest.take n, r') ∧ r'.rest = r.rest.drop n) ∨
    (r.rest.length < n ∧ readFullAux fuel n r = none) := by
  induction fuel generalizing n r with
  | zero => omega
  | succ fuel ih =>
    cases n with
    | zero => left; exact ⟨by omega, r, by simp [readFullAux], by simp⟩
    | succ n =>
      rcases hb : bufRead (n + 1) r with _ | ⟨d, r'⟩
      · right
        have := bufRead_none hb
        refine ⟨by rw [this]; simp, by simp [readFullAux, hb]⟩
      · obtain ⟨h1, h2, h3⟩ := bufRead_spec (by omega) hb
        rcases ih (n + 1 - d.length) r' (by omega) with ⟨h4, r'', h5, h6⟩ | ⟨h4, h5⟩
        · left
          refine ⟨by rw [h1]; simp; omega, r'', ?_, ?_⟩
          · simp only [readFullAux, hb, h5]
            rw [h1, List.take_append, List.take_of_length_le (l := d) h3]
          · rw [h6, h1, List.drop_append, List.drop_of_length_le h3]; simp
        · right
          refine ⟨by rw [h1]; simp; omega, by simp [readFullAux, hb, h5]⟩

theorem readFull_spec (n : Nat) (r : Reader) :
    (n ≤ r.rest.length ∧ ∃ r', readFull n r = some (r.rest.take n, r') ∧ r'.rest = r.rest.drop n) ∨
    (r.rest.length < n ∧ readFull n r = none) := readFullAux_spec _ _ _ (by omega)

theorem le32_length (n : Nat) : (le32 n).length = 4 := rfl

theorem unle32_le32 (n : Nat) (h : n < 2 ^ 32) : unle32 (le32 n) = n := by
  simp only [le32, unle32, UInt8.toNat_ofNat']
  omega

theorem frame_length (m : Bytes) : (frame m).length = m.length + 4 := by
  simp [frame, le32]

/-- The result of ReadStreamWithBuffer depends on the delivered bytes only. -/
theorem read_result (chunks : List Bytes) :
    let s := chunks.flatten
    (s.length < 4 ∧ (ReadStreamWithBuffer chunks).1 = .err "error in read the message head") ∨
    (4 ≤ s.length ∧ unle32 (s.take 4) > MaxPayload ∧
      (ReadStreamWithBuffer chunks).1 = .err "payload length exceed max payload length") ∨
    (4 ≤ s.length ∧ unle32 (s.take 4) ≤ MaxPayload ∧ s.length < 4 + unle32 (s.take 4) ∧
      (ReadStreamWithBuffer chunks).1 = .err "short read") ∨
    (4 ≤ s.length ∧ unle32 (s.take 4) ≤ MaxPayload ∧ 4 + unle32 (s.take 4) ≤ s.length ∧
      (ReadStreamWithBuffer chunks).1 = .ok ((s.drop 4).take (unle32 (s.take 4)))) := by
  intro s
  have hrest : (⟨[], chunks⟩ : Reader).rest = s := by simp [Reader.rest, s]
  rcases readFull_spec LengthHeader ⟨[], chunks⟩ with ⟨h1, r', h2, h3⟩ | ⟨h1, h2⟩
  · rw [hrest] at h1 h2 h3
    have h1' : 4 ≤ s.length := h1
    have h2' : readFull LengthHeader ⟨[], chunks⟩ = some (s.take 4, r') := h2
    have h3' : r'.rest = s.drop 4 := h3
    right
    by_cases hm : unle32 (s.take 4) > MaxPayload
    · left
      refine ⟨h1', hm, ?_⟩
      unfold ReadStreamWithBuffer
      rw [h2']
      simp [hm]
    · right
      rcases readFull_spec (unle32 (s.take 4)) r' with ⟨g1, r'', g2, g3⟩ | ⟨g1, g2⟩
      · right
        rw [h3'] at g1 g2
        refine ⟨h1', by omega, by simp at g1; omega, ?_⟩
        unfold ReadStreamWithBuffer
        rw [h2']
        simp only [hm, if_false]
        rw [g2]
      · left
        rw [h3'] at g1
        refine ⟨h1', by omega, by simp at g1; omega, ?_⟩
        unfold ReadStreamWithBuffer
        rw [h2']
        simp only [hm, if_false]
        rw [g2]
  · rw [hrest] at h1
    left
    refine ⟨h1, ?_⟩
    unfold ReadStreamWithBuffer
    rw [h2]

end Verif.Stream
