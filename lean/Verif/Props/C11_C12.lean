import Verif.Lemmas.Stream

/-! # C11, C12, C67: stream framing -/
namespace Verif.Props.Framing
open Verif.Go Verif.Stream

theorem frame_take (m s : Bytes) : (frame m ++ s).take 4 = le32 (m.length % 2 ^ 32) := by
  unfold frame
  rw [List.append_assoc, List.take_append_of_le_length (by rw [le32_length]), List.take_of_length_le (by rw [le32_length])]

theorem frame_drop (m s : Bytes) : (frame m ++ s).drop 4 = m ++ s := by
  unfold frame
  rw [List.append_assoc, List.drop_append_of_le_length (by rw [le32_length]), List.drop_of_length_le (by rw [le32_length])]
  rfl

/-- C11: what was written is read back unchanged, for every payload up to MaxPayload, however the transport cuts the bytes
into chunks and whatever follows the frame. -/
theorem c11_roundtrip (msg trailing : Bytes) (chunks : List Bytes) (hlen : msg.length ≤ MaxPayload)
    (hw : (WriteStreamWithBuffer msg none).1 ++ trailing = chunks.flatten) :
    (WriteStreamWithBuffer msg none).2 = .ok () ∧ (ReadStreamWithBuffer chunks).1 = .ok msg := by
  refine ⟨rfl, ?_⟩
  have hw' : chunks.flatten = frame msg ++ trailing := hw.symm
  have hM : MaxPayload = 20000000 := rfl
  have hmod : msg.length % 2 ^ 32 = msg.length := Nat.mod_eq_of_lt (by omega)
  have hun : unle32 (chunks.flatten.take 4) = msg.length := by
    rw [hw', frame_take, hmod, unle32_le32 _ (by omega)]
  have hl : chunks.flatten.length = msg.length + 4 + trailing.length := by
    rw [hw', List.length_append, frame_length]
  rcases read_result chunks with ⟨h, _⟩ | ⟨_, h, _⟩ | ⟨_, _, h, _⟩ | ⟨_, _, _, h⟩
  · omega
  · rw [hun] at h; omega
  · rw [hun] at h; omega
  · rw [h, hun, hw', frame_drop, List.take_append_of_le_length (le_refl _), List.take_length]

/-- C11 witness: a three byte payload delivered in four chunks, one of them empty. -/
example : (ReadStreamWithBuffer [[3, 0], [], [0, 0, 7], [8, 9, 1]]).1 = .ok [7, 8, 9] := by decide

/-- C12: a strict prefix of a frame is never accepted, whatever the chunking. -/
theorem c12_truncated_refused (msg : Bytes) (chunks : List Bytes) (k : Nat) (hlen : msg.length < 2 ^ 32)
    (hk : k < (frame msg).length) (hc : chunks.flatten = (frame msg).take k) :
    ∃ e, (ReadStreamWithBuffer chunks).1 = .err e := by
  have hl : chunks.flatten.length = k := by rw [hc, List.length_take]; omega
  rw [frame_length] at hk
  have hun : 4 ≤ k → unle32 (chunks.flatten.take 4) = msg.length := by
    intro h4
    rw [hc, List.take_take, Nat.min_eq_left h4]
    have := frame_take msg []
    rw [List.append_nil] at this
    rw [this, Nat.mod_eq_of_lt hlen, unle32_le32 _ hlen]
  rcases read_result chunks with ⟨_, h⟩ | ⟨_, _, h⟩ | ⟨_, _, _, h⟩ | ⟨h4, _, h5, _⟩
  · exact ⟨_, h⟩
  · exact ⟨_, h⟩
  · exact ⟨_, h⟩
  · rw [hun (by omega)] at h5; omega

/-- C12: a write which is reported as done put the header and the whole payload on the wire; otherwise the failure is reported. -/
theorem c12_write_reported (msg : Bytes) (fault : Option Nat) :
    ((WriteStreamWithBuffer msg fault).2 = .ok () ∧ ∃ header, header.length = 4 ∧ (WriteStreamWithBuffer msg fault).1 = header ++ msg) ∨
    ((∃ e, (WriteStreamWithBuffer msg fault).2 = .err e) ∧ (WriteStreamWithBuffer msg fault).1.length < 4 + msg.length ∧
      ∃ k, fault = some k) := by
  rcases fault with _ | k
  · exact Or.inl ⟨rfl, _, le32_length _, rfl⟩
  · unfold WriteStreamWithBuffer
    dsimp only
    by_cases h : k < (frame msg).length
    · right
      rw [if_pos h]
      refine ⟨⟨_, rfl⟩, ?_, _, rfl⟩
      rw [frame_length] at h
      rw [List.length_take, frame_length]
      omega
    · left
      rw [if_neg h]
      exact ⟨rfl, _, le32_length _, rfl⟩

/-- C12: if writing failed, the reader cannot mistake what did reach the wire for a payload. -/
theorem c12_failed_write_unreadable (msg : Bytes) (k : Nat) (chunks : List Bytes) (hlen : msg.length < 2 ^ 32)
    (hw : ∃ e, (WriteStreamWithBuffer msg (some k)).2 = .err e)
    (hc : chunks.flatten = (WriteStreamWithBuffer msg (some k)).1) :
    ∃ e, (ReadStreamWithBuffer chunks).1 = .err e := by
  unfold WriteStreamWithBuffer at hw hc
  simp only at hw hc
  by_cases h : k < (frame msg).length
  · rw [if_pos h] at hc
    exact c12_truncated_refused msg chunks k hlen h hc
  · rw [if_neg h] at hw
    obtain ⟨e, he⟩ := hw
    cases he

/-- C12: a length header above MaxPayload is refused. -/
theorem c12_oversized_refused (chunks : List Bytes)
    (h : unle32 (chunks.flatten.take 4) > MaxPayload) : ∃ e, (ReadStreamWithBuffer chunks).1 = .err e := by
  rcases read_result chunks with ⟨_, h⟩ | ⟨_, _, h⟩ | ⟨_, _, _, h⟩ | ⟨_, h5, _⟩
  · exact ⟨_, h⟩
  · exact ⟨_, h⟩
  · exact ⟨_, h⟩
  · omega

/-- C12: in particular the frame of a payload between MaxPayload and 2^32 bytes is written without error but refused by
every reader. -/
theorem c12_too_large_payload (msg trailing : Bytes) (chunks : List Bytes) (h1 : MaxPayload < msg.length)
    (h2 : msg.length < 2 ^ 32) (hc : chunks.flatten = frame msg ++ trailing) :
    (WriteStreamWithBuffer msg none).2 = .ok () ∧ ∃ e, (ReadStreamWithBuffer chunks).1 = .err e := by
  refine ⟨rfl, c12_oversized_refused chunks ?_⟩
  · rw [hc, frame_take, Nat.mod_eq_of_lt h2, unle32_le32 _ h2]; exact h1

/-- C12: an accepted payload never exceeds MaxPayload, it is at least as long as announced, and the announced length is the
header's. -/
theorem c12_accepted_bounded (chunks : List Bytes) (d : Bytes) (h : (ReadStreamWithBuffer chunks).1 = .ok d) :
    d.length ≤ MaxPayload ∧ d.length = unle32 (chunks.flatten.take 4) ∧ 4 + d.length ≤ chunks.flatten.length := by
  rcases read_result chunks with ⟨_, h'⟩ | ⟨_, _, h'⟩ | ⟨_, _, _, h'⟩ | ⟨h4, h5, h6, h'⟩
  · rw [h'] at h; cases h
  · rw [h'] at h; cases h
  · rw [h'] at h; cases h
  · rw [h'] at h
    injection h with h
    have : d.length = unle32 (chunks.flatten.take 4) := by
      rw [← h, List.length_take, List.length_drop]; omega
    omega

/-- C12 limit: a payload of 2^32 + k bytes is written with the header k, without error: the reader gets its first k bytes. -/
theorem c12_wraparound (msg : Bytes) (k : Nat) (hk : k ≤ MaxPayload) (hl : msg.length = 2 ^ 32 + k)
    (chunks : List Bytes) (hc : chunks.flatten = (WriteStreamWithBuffer msg none).1) :
    (ReadStreamWithBuffer chunks).1 = .ok (msg.take k) := by
  have hM : MaxPayload = 20000000 := rfl
  have hc' : chunks.flatten = frame msg ++ [] := by rw [List.append_nil]; exact hc
  have hun : unle32 (chunks.flatten.take 4) = k := by
    rw [hc', frame_take, hl]
    have : (2 ^ 32 + k) % 2 ^ 32 = k := by omega
    rw [this, unle32_le32 _ (by omega)]
  have hlen : chunks.flatten.length = msg.length + 4 := by rw [hc', List.append_nil, frame_length]
  rcases read_result chunks with ⟨h, _⟩ | ⟨_, h, _⟩ | ⟨_, _, h, _⟩ | ⟨_, _, _, h⟩
  · omega
  · rw [hun] at h; omega
  · rw [hun] at h; omega
  · rw [h, hun, hc', frame_drop, List.append_nil]

/-- Witnesses for C12: a truncated frame, an oversized header. -/
example : ∃ e, (ReadStreamWithBuffer [[3, 0, 0], [0, 7, 8]]).1 = .err e := ⟨_, rfl⟩
example : ∃ e, (ReadStreamWithBuffer [[255, 255, 255, 255], [0, 7, 8]]).1 = .err e := ⟨_, rfl⟩

/-! ## C67 several frames on one stream -/

/-- C67 is false in general: two frames delivered in one chunk; the second one is swallowed by the first call's buffer. -/
theorem c67_second_frame_lost :
    ∃ chunks, chunks.flatten = frame [7] ++ frame [8] ∧ (ReadStreamWithBuffer chunks).1 = .ok [7] ∧
      (ReadStreamWithBuffer (ReadStreamWithBuffer chunks).2).1 ≠ .ok [8] :=
  ⟨[frame [7] ++ frame [8]], by decide, by decide, by decide⟩

theorem readFull_chunks_exact (n : Nat) (pre post : List Bytes) (buf : Bytes) (hpost : ∀ c ∈ pre, c ≠ [])
    (hn : n = buf.length + pre.flatten.length) (fuel : Nat) (hf : (⟨buf, pre ++ post⟩ : Reader).size < fuel) :
    readFullAux fuel n ⟨buf, pre ++ post⟩ = some (buf ++ pre.flatten, ⟨[], post⟩) ∨ n = 0 := by
  induction fuel generalizing n pre buf with
  | zero => omega
  | succ fuel ih =>
    cases n with
    | zero => right; rfl
    | succ n =>
      left
      rcases hb : bufRead (n + 1) ⟨buf, pre ++ post⟩ with _ | ⟨d, r'⟩
      · have := bufRead_none hb
        have := congrArg List.length this
        simp only [Reader.rest, List.length_append, List.flatten_append, List.length_nil] at this; omega
      · have hspec := bufRead_spec (by omega) hb
        -- shape of the new reader
        have hshape : ∃ pre' buf', r' = ⟨buf', pre' ++ post⟩ ∧ (∀ c ∈ pre', c ≠ []) ∧
            buf ++ pre.flatten = d ++ (buf' ++ pre'.flatten) := by
          unfold bufRead at hb
          cases buf with
          | cons x xs =>
            simp only at hb
            cases hb
            exact ⟨pre, _, rfl, hpost, by simp [← List.append_assoc]⟩
          | nil =>
            simp only at hb
            cases pre with
            | nil => simp at hn
            | cons ch rest =>
              simp only [List.cons_append] at hb
              have hrest : ∀ c ∈ rest, c ≠ [] := fun c hc => hpost c (by simp [hc])
              split at hb
              · simp only [rdRead] at hb
                by_cases hlt : ch.length ≤ n + 1
                · rw [if_pos hlt] at hb
                  cases hb
                  exact ⟨rest, [], rfl, hrest, by simp⟩
                · rw [if_neg hlt] at hb
                  cases hb
                  refine ⟨ch.drop (n + 1) :: rest, [], rfl, ?_, by simp [← List.append_assoc]⟩
                  intro c hc
                  rcases List.mem_cons.1 hc with rfl | hc
                  · intro he
                    have := congrArg List.length he
                    simp at this; omega
                  · exact hrest c hc
              · simp only [rdRead] at hb
                by_cases hlt : ch.length ≤ bufSize
                · rw [if_pos hlt] at hb
                  cases hb
                  exact ⟨rest, _, rfl, hrest, by simp [← List.append_assoc]⟩
                · rw [if_neg hlt] at hb
                  cases hb
                  refine ⟨ch.drop bufSize :: rest, _, rfl, ?_, by simp [← List.append_assoc]⟩
                  intro c hc
                  rcases List.mem_cons.1 hc with rfl | hc
                  · intro he
                    have := congrArg List.length he
                    simp at this; omega
                  · exact hrest c hc
        obtain ⟨pre', buf', rfl, hpre', hcat⟩ := hshape
        have hl := congrArg List.length hcat
        simp only [List.length_append] at hl
        have hn' : n + 1 - d.length = buf'.length + pre'.flatten.length := by omega
        rcases ih (n + 1 - d.length) pre' buf' hpre' hn' (by have := hspec.2.1; omega) with h | h
        · simp only [readFullAux, hb, h, hcat]
        · have hz : buf' = [] ∧ pre'.flatten = [] := by
            constructor
            · exact List.length_eq_zero_iff.1 (by omega)
            · exact List.length_eq_zero_iff.1 (by omega)
          have hp : pre' = [] := by
            cases pre' with
            | nil => rfl
            | cons c cs =>
              exfalso
              have h1 := hpre' c (by simp)
              have h2 := hz.2
              simp at h2
              exact h1 h2.1
          subst hp
          rw [hz.1] at hb hcat
          simp only [readFullAux, hb, h]
          simp at hcat
          simp [hcat]

/-- C67 (partial): if the transport delivers the header and the payload of the first frame in chunks of their own, the
next call sees exactly the following chunks, so that the second frame is read. Missing: arbitrary chunkings, for which
the claim is false. -/
theorem c67_aligned_frames_partial (m : Bytes) (hm : m.length ≤ MaxPayload) (hne : m ≠ []) (post : List Bytes) :
    ReadStreamWithBuffer (le32 (m.length % 2 ^ 32) :: m :: post) = (.ok m, post) := by
  have hM : MaxPayload = 20000000 := rfl
  have h1 := readFull_chunks_exact 4 [le32 (m.length % 2 ^ 32)] (m :: post) [] (by simp [le32]) (by simp [le32])
    ((⟨[], [le32 (m.length % 2 ^ 32)] ++ (m :: post)⟩ : Reader).size + 1) (by omega)
  have h1' : readFull LengthHeader ⟨[], le32 (m.length % 2 ^ 32) :: m :: post⟩ =
      some (le32 (m.length % 2 ^ 32), ⟨[], m :: post⟩) := by
    rcases h1 with h1 | h1
    · simpa [readFull, LengthHeader] using h1
    · omega
  have hu : unle32 (le32 (m.length % 2 ^ 32)) = m.length := by
    rw [Nat.mod_eq_of_lt (by omega), unle32_le32 _ (by omega)]
  have h2 := readFull_chunks_exact m.length [m] post [] (by simpa using hne) (by simp)
    ((⟨[], [m] ++ post⟩ : Reader).size + 1) (by omega)
  have h2' : readFull m.length ⟨[], m :: post⟩ = some (m, ⟨[], post⟩) := by
    rcases h2 with h2 | h2
    · simpa [readFull] using h2
    · exact absurd (List.length_eq_zero_iff.1 h2) hne
  unfold ReadStreamWithBuffer
  rw [h1']
  simp only [hu]
  rw [if_neg (by omega), h2']

example : ReadStreamWithBuffer [[1, 0, 0, 0], [7], frame [8]] = (.ok [7], [frame [8]]) := by decide

end Verif.Props.Framing
