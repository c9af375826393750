import Verif.Lemmas.Curve
import Verif.Props.C107

/-!
# C114: the pool key is the generated point, and every later check accepts it

`GetTssPubKey` turns the point of a new key into the text that Keygen returns, `CheckKeyOnCurve` is the check that storing and reading a share make.
-/
set_option linter.unusedSectionVars false
namespace Verif.Props.PoolKeys
open Verif.Go Verif.Curve

/-! ## specification -/

/-- Specification: a point of secp256k1, y² = x³ + 7 over the field with 2²⁵⁶ - 2³² - 977 elements, with reduced coordinates -/
def OnCurve (pt : Point) : Prop :=
  pt.x < 2 ^ 256 - 2 ^ 32 - 977 ∧ pt.y < 2 ^ 256 - 2 ^ 32 - 977 ∧
    (pt.y : ZMod (2 ^ 256 - 2 ^ 32 - 977)) ^ 2 = (pt.x : ZMod (2 ^ 256 - 2 ^ 32 - 977)) ^ 3 + 7

/-- Specification: the bytes are the compressed form of the point: 2 or 3 for the parity of y, then x as a 32-byte number -/
def Compressed (b : Bytes) (pt : Point) : Prop :=
  ∃ f rest, b = f :: rest ∧ f.toNat = 2 + pt.y % 2 ∧ rest.length = 32 ∧ Bytes.toNat rest = pt.x

/-- Specification: the bytes are an uncompressed form of the point: 4, or 6 or 7 for the parity of y, then x and y as 32-byte numbers -/
def Uncompressed (b : Bytes) (pt : Point) : Prop :=
  ∃ f xs ys, b = f :: (xs ++ ys) ∧ (f.toNat = 4 ∨ f.toNat = 6 + pt.y % 2) ∧ xs.length = 32 ∧ ys.length = 32 ∧ Bytes.toNat xs = pt.x ∧
    Bytes.toNat ys = pt.y

theorem isOnCurve_iff (x y : Nat) : isOnCurve x y = true ↔ (y : ZMod fieldP) ^ 2 = (x : ZMod fieldP) ^ 3 + 7 := by
  unfold isOnCurve
  rw [decide_eq_true_iff]
  have := ZMod.natCast_eq_natCast_iff (y * y) (x * x * x + 7) fieldP
  rw [Nat.ModEq] at this
  rw [← this]
  push_cast
  rw [pow_two, pow_succ, pow_two]

theorem onCurve_iff (pt : Point) : OnCurve pt ↔ pt.x < fieldP ∧ pt.y < fieldP ∧ isOnCurve pt.x pt.y = true := by
  rw [isOnCurve_iff]; exact Iff.rfl

/-! ## a key text names one point -/
section
variable {K A : Type} (enc : Bytes → Option K) (dec : K → Option Bytes) (addr : Bytes → A)

theorem serialize_compressed {pt : Point} (h : OnCurve pt) : Compressed (serializeCompressed pt) pt := by
  refine ⟨_, _, rfl, ?_, length_padded h.1, by rw [toNat_padded, Bytes.toNat_ofNat]⟩
  rcases Nat.mod_two_eq_zero_or_one pt.y with h | h <;> simp [h]

/-- C114: the key text of a point carries the compressed form of that point, and parsing this form gives the point back. -/
theorem c114_key_names_point (hlaw : ∀ b k, enc b = some k → dec k = some b) (pt : Point) (hpt : OnCurve pt) (k : K) (a : A)
    (h : Curve.GetTssPubKey enc addr (some pt) = .ok (k, a)) :
    ∃ b, dec k = some b ∧ Compressed b pt ∧ parsePubKey b = some pt ∧ a = addr b := by
  obtain ⟨h1, h2, h3⟩ := (onCurve_iff pt).1 hpt
  unfold Curve.GetTssPubKey at h
  simp only [h3, if_true] at h
  split at h
  · rename_i k' hk
    cases h
    exact ⟨_, hlaw _ _ hk, serialize_compressed hpt, parse_serialize pt h1 h2 h3, rfl⟩
  · cases h

/-- C114: different points have different key texts. -/
theorem c114_keys_differ (hlaw : ∀ b k, enc b = some k → dec k = some b) (pt pt' : Point) (hpt : OnCurve pt) (hpt' : OnCurve pt') (k : K) (a a' : A)
    (h : Curve.GetTssPubKey enc addr (some pt) = .ok (k, a)) (h' : Curve.GetTssPubKey enc addr (some pt') = .ok (k, a')) : pt = pt' := by
  obtain ⟨b, h1, -, h2, -⟩ := c114_key_names_point enc dec addr hlaw pt hpt k a h
  obtain ⟨b', h1', -, h2', -⟩ := c114_key_names_point enc dec addr hlaw pt' hpt' k a' h'
  rw [h1] at h1'
  cases h1'
  rw [h2] at h2'
  cases h2'
  rfl

/-- C114: a missing point and coordinates that are not on the curve get no key; a point of the curve gets one unless bech32 fails. -/
theorem c114_only_points (o : Option Point) :
    (∃ r, Curve.GetTssPubKey enc addr o = .ok r) ↔
      ∃ pt, o = some pt ∧ (pt.y : ZMod fieldP) ^ 2 = (pt.x : ZMod fieldP) ^ 3 + 7 ∧ enc (serializeCompressed pt) ≠ none := by
  cases o with
  | none => simp [Curve.GetTssPubKey]
  | some pt =>
    simp only [Option.some.injEq, exists_eq_left', ← isOnCurve_iff]
    unfold Curve.GetTssPubKey
    dsimp only
    by_cases hc : isOnCurve pt.x pt.y = true
    · rw [if_pos hc]
      cases he : enc (serializeCompressed pt) <;> simp [hc]
    · rw [if_neg hc]
      simp [hc]

/-! ## the check of a key text -/

theorem byte_parity (f : UInt8) (m : Nat) (y : Nat) (h : f.toNat / 2 = m) (hy : decide (f.toNat % 2 = 1) = decide (y % 2 = 1)) :
    f.toNat = 2 * m + y % 2 := by
  have : f.toNat % 2 = 1 ↔ y % 2 = 1 := by simpa using hy
  omega

theorem checked_eq {x y : Nat} {pt : Point} : checked x y = some pt ↔ pt = ⟨x, y⟩ ∧ OnCurve pt := by
  unfold checked
  constructor
  · intro h
    split at h
    · split at h
      · split at h
        · cases h
          exact ⟨rfl, (onCurve_iff _).2 ⟨‹_›, ‹_›, ‹_›⟩⟩
        · cases h
      · cases h
    · cases h
  · rintro ⟨rfl, h⟩
    obtain ⟨h1, h2, h3⟩ := (onCurve_iff _).1 h
    rw [if_pos h1, if_pos h2, if_pos h3]

theorem decompress_parity {x y : Nat} {odd : Bool} (h : decompress x odd = some y) : odd = decide (y % 2 = 1) := by
  unfold decompress at h
  dsimp only at h
  generalize powMod fieldP 256 ((x * x * x + 7) % fieldP) ((fieldP + 1) / 4) = r at h
  generalize (if odd = decide (r % 2 = 1) then r else fieldP - r) = z at h
  generalize (x * x * x + 7) % fieldP = c at h
  by_cases h1 : z * z % fieldP = c
  · rw [if_pos h1] at h
    by_cases h2 : odd = decide (z % 2 = 1)
    · rw [if_pos h2] at h; injection h with h; rw [← h]; exact h2
    · rw [if_neg h2] at h; cases h
  · rw [if_neg h1] at h; cases h

/-- parsing accepts exactly the compressed and uncompressed forms of the points of the curve -/
theorem parse_iff (b : Bytes) (pt : Point) : parsePubKey b = some pt ↔ OnCurve pt ∧ (Compressed b pt ∨ Uncompressed b pt) := by
  constructor
  · intro h
    refine ⟨(onCurve_iff _).2 (parse_onCurve h), ?_⟩
    unfold parsePubKey at h
    split at h
    · cases h
    · rename_i f rest
      dsimp only at h
      split at h
      · rename_i hl
        have hl' : rest.length = 64 := by simpa using hl
        split at h
        · rename_i hf
          obtain ⟨rfl, -⟩ := checked_eq.1 h
          right
          refine ⟨f, rest.take 32, rest.drop 32, by rw [List.take_append_drop], ?_, by simp [hl'], by simp [hl'], rfl, rfl⟩
          rcases hf with ⟨h1, h2⟩ | ⟨h1, h2⟩
          · left
            have : ¬ f.toNat % 2 = 1 := by simpa using h2
            omega
          · right; exact byte_parity f 3 _ h1 h2
        · cases h
      · split at h
        · rename_i hl
          have hl' : rest.length = 32 := by simpa using hl
          split at h
          · rename_i hf
            split at h
            · rename_i y hy
              obtain ⟨rfl, -⟩ := checked_eq.1 h
              left
              exact ⟨f, rest, rfl, byte_parity f 1 _ hf (decompress_parity hy), hl', rfl⟩
            · cases h
          · cases h
        · cases h
  · rintro ⟨hpt, hb⟩
    obtain ⟨h1, h2, h3⟩ := (onCurve_iff pt).1 hpt
    rcases hb with ⟨f, rest, rfl, hf, hl, hx⟩ | ⟨f, xs, ys, rfl, hf, hxl, hyl, hx, hy⟩
    · have hd := decompress_point h2 h3
      have e1 : f.toNat / 2 = 1 := by omega
      have e2 : decide (f.toNat % 2 = 1) = decide (pt.y % 2 = 1) := by congr 1; rw [hf]; exact propext (by omega)
      unfold parsePubKey
      simp only [List.length_cons, hl, e1, e2, hx, hd]
      rw [if_neg (by decide), if_pos (by decide), if_pos trivial]
      exact checked_eq.2 ⟨rfl, hpt⟩
    · unfold parsePubKey
      have t1 : (xs ++ ys).take 32 = xs := by rw [← hxl]; simp
      have t2 : (xs ++ ys).drop 32 = ys := by rw [← hxl]; simp
      simp only [List.length_cons, List.length_append, hxl, hyl, t1, t2, hx, hy]
      rw [if_pos (by decide), if_pos]
      · exact checked_eq.2 ⟨rfl, hpt⟩
      · rcases hf with hf | hf
        · left; constructor
          · omega
          · rw [hf]; rfl
        · right; constructor
          · omega
          · congr 1; rw [hf]; exact propext (by omega)

/-- C114: the check accepts exactly the texts that carry a compressed or uncompressed form of a point of the curve; every other text is an
error. -/
theorem c114_check (k : K) :
    (CheckKeyOnCurve dec k = .ok true ↔ ∃ b pt, dec k = some b ∧ OnCurve pt ∧ (Compressed b pt ∨ Uncompressed b pt)) ∧
      CheckKeyOnCurve dec k ≠ .ok false := by
  unfold CheckKeyOnCurve
  cases hd : dec k with
  | none => simp
  | some b =>
    dsimp only
    cases hp : parsePubKey b with
    | none =>
      refine ⟨⟨(fun h => by cases h), ?_⟩, by simp⟩
      rintro ⟨b', pt, hb, h⟩
      cases hb
      rw [← parse_iff, hp] at h
      cases h
    | some pt =>
      have := (parse_onCurve hp).2.2
      dsimp only
      rw [this]
      refine ⟨⟨fun _ => ⟨b, pt, rfl, (parse_iff b pt).1 hp⟩, fun _ => rfl⟩, by simp⟩

/-- C114: the key of a generated point passes the check. -/
theorem c114_key_accepted (hlaw : ∀ b k, enc b = some k → dec k = some b) (pt : Point) (hpt : OnCurve pt) (k : K) (a : A)
    (h : Curve.GetTssPubKey enc addr (some pt) = .ok (k, a)) : CheckKeyOnCurve dec k = .ok true := by
  obtain ⟨b, h1, h2, -⟩ := c114_key_names_point enc dec addr hlaw pt hpt k a h
  exact (c114_check dec k).1.2 ⟨b, pt, h1, hpt, .inl h2⟩
end

/-! ## Keygen with this curve -/
section
open Verif.Keygen Verif.Server Verif.Session Verif.Props.KeyGeneration Verif.Spec.Keygen Verif.Spec.Server
variable {P S H L A Q : Type} [DecidableEq P] [LinearOrder S] [LinearOrder H]

/-- the node's keys are points of secp256k1 in their bech32 form: the parameters of `Verif.Keygen` and `Verif.Storage` are the functions above -/
structure RealKeys (env : KEnv P S H L Point A Q) (enc : Bytes → Option Str) (dec : Str → Option Bytes) : Prop where
  onCurve : ∀ pt, env.onCurve pt = isOnCurve pt.x pt.y
  bech32 : ∀ pt, env.bech32 pt = enc (serializeCompressed pt)
  check : ∀ k, env.base.storage.checkKey k = CheckKeyOnCurve dec k.toList
  law : ∀ b k, enc b = some k → dec k = some b

variable {env : KEnv P S H L Point A Q} {enc : Bytes → Option Str} {dec : Str → Option Bytes} {req : Request} {disk : Storage.Disk}

/-- C114: the pool key that a successful Keygen returns carries the compressed form of the point of the share that was stored for it. -/
theorem c114_keygen_key (hk : RealKeys env enc dec) {pre : List Char} (g : Storage.Good env.base.storage pre) (hpub : ∀ l, OnCurve (env.pubOf l))
    (h : List (Event P L A Q)) (resp : Response) (err : Option Err) (hr : (run env disk req h).ret = some (resp, err))
    (hs : resp.status = .success) :
    ∃ st b, stored env (run env disk req h).disk resp.pubKey = .ok st ∧ dec resp.pubKey = some b ∧ Compressed b (env.pubOf st.localData) := by
  obtain ⟨-, e, -, hp, -, hst⟩ := c52_success_is_stored g h resp err hr hs
  refine ⟨_, _, hst, hk.law _ _ ?_, serialize_compressed (hpub e.share)⟩
  rw [← hk.bech32]; exact hp.2

/-- C114: Keygen does not fail on the key itself: an unusable key is reported only if the point is not on the curve or has no bech32 form,
and a failed save only if the share cannot be encoded or the write fails. -/
theorem c114_keygen_errors (hk : RealKeys env enc dec) (hpub : ∀ l, OnCurve (env.pubOf l)) (h : List (Event P L A Q)) (resp : Response)
    (x : LoopErr) (hr : (run env disk req h).ret = some (resp, some (.loop x))) :
    (x = .pubkey → ∃ e : End L A Q, Event.loop (.done e) ∈ h ∧ enc (serializeCompressed (env.pubOf e.share)) = none) ∧
      (x = .save → ∃ (e : End L A Q) (k : Str), Event.loop (.done e) ∈ h ∧ enc (serializeCompressed (env.pubOf e.share)) = some k ∧
        (env.base.storage.enc ⟨k, e.share, sortedKeys req, env.ownKey⟩ = none ∨ e.fault ≠ none)) := by
  obtain ⟨id, sch, lenv, mgr, lh, pre, e, post, -, -, -, hlh, he, -, hf⟩ := c107_error_names_reason h resp _ hr
  have hmem : ∀ e' : End L A Q, e = .done e' → Event.loop (.done e') ∈ h := by
    rintro e' rfl
    have : LoopEvent.done e' ∈ loopEvents h := hlh.subset (he ▸ by simp)
    unfold loopEvents at this
    obtain ⟨ev, h1, h2⟩ := List.mem_filterMap.1 this
    cases ev <;> simp at h2
    subst h2; exact h1
  have hon : ∀ l, env.onCurve (env.pubOf l) = true := fun l => by rw [hk.onCurve]; exact ((onCurve_iff _).1 (hpub l)).2.2
  constructor
  · rintro rfl
    cases hf with
    | pubkey e' hn =>
      refine ⟨e', hmem e' rfl, ?_⟩
      rw [← hk.bech32]
      cases hb : env.bech32 (env.pubOf e'.share) with
      | none => rfl
      | some k => exact absurd ⟨hon _, hb⟩ (hn k)
  · rintro rfl
    cases hf with
    | save e' k hp hw =>
      have hb := hp.2
      rw [hk.bech32] at hb
      refine ⟨e', k, hmem e' rfl, hb, ?_⟩
      by_contra hc
      push Not at hc
      obtain ⟨c1, c2⟩ := hc
      obtain ⟨msg, hw⟩ := hw
      unfold Storage.SaveLocalState at hw
      cases hen : env.base.storage.enc ⟨k, e'.share, sortedKeys req, env.ownKey⟩ with
      | none => exact c1 hen
      | some buf =>
        have hck : env.base.storage.checkKey (String.ofList k) = .ok true := by
          rw [hk.check]
          refine (c114_check dec _).1.2 ⟨_, env.pubOf e'.share, ?_, hpub _, .inl (serialize_compressed (hpub _))⟩
          rw [String.toList_ofList]; exact hk.law _ _ hb
        rw [hen] at hw
        simp only [Storage.getFilePathName, hck, c2, Storage.writeFile] at hw
        cases hw
end

/-! ## examples -/
section demo

/-- the generator of secp256k1 -/
def G : Point := ⟨0x79BE667EF9DCBBAC55A06295CE870B07029BFCDB2DCE28D959F2815B16F81798, 0x483ADA7726A3C4655DA4FBFC0E1108A8FD17B448A68554199C47D08FFB10D4B8⟩

/-- the opposite point -/
def negG : Point := ⟨G.x, fieldP - G.y⟩

theorem onCurve_G : OnCurve G := (onCurve_iff _).2 (by decide +kernel)
theorem onCurve_negG : OnCurve negG := (onCurve_iff _).2 (by decide +kernel)

/-- both points get keys, which differ, although x is the same; `enc` and `dec` are trivial -/
example : Curve.GetTssPubKey (K := Bytes) some List.length (some G) = .ok (serializeCompressed G, 33) ∧
    Curve.GetTssPubKey (K := Bytes) some List.length (some negG) = .ok (serializeCompressed negG, 33) ∧
    serializeCompressed G ≠ serializeCompressed negG ∧ (serializeCompressed G).take 3 = [2, 0x79, 0xBE] ∧
    (serializeCompressed negG).take 3 = [3, 0x79, 0xBE] ∧ CheckKeyOnCurve some (serializeCompressed G) = .ok true ∧
    CheckKeyOnCurve some (serializeCompressed negG) = .ok true := by
  have h1 : (isOnCurve G.x G.y) = true := ((onCurve_iff _).1 onCurve_G).2.2
  have h2 : (isOnCurve negG.x negG.y) = true := ((onCurve_iff _).1 onCurve_negG).2.2
  have k1 : Curve.GetTssPubKey (K := Bytes) some List.length (some G) = .ok (serializeCompressed G, 33) := by
    unfold Curve.GetTssPubKey
    simp only [h1, if_true]
    rw [show (serializeCompressed G).length = 33 from by simp [serializeCompressed, length_padded onCurve_G.1]]
  have k2 : Curve.GetTssPubKey (K := Bytes) some List.length (some negG) = .ok (serializeCompressed negG, 33) := by
    unfold Curve.GetTssPubKey
    simp only [h2, if_true]
    rw [show (serializeCompressed negG).length = 33 from by simp [serializeCompressed, length_padded onCurve_negG.1]]
  refine ⟨k1, k2, ?_, ?_, ?_, c114_key_accepted some some List.length (fun _ _ h => h.symm) G onCurve_G _ _ k1,
    c114_key_accepted some some List.length (fun _ _ h => h.symm) negG onCurve_negG _ _ k2⟩
  · intro h
    rw [← h] at k2
    exact absurd (c114_keys_differ some some List.length (fun _ _ h => h.symm) _ _ onCurve_G onCurve_negG _ _ _ k1 k2) (by decide +kernel)
  · decide +kernel
  · decide +kernel

/-- a point beside the curve gets no key, and a text that carries no point is refused -/
example : Curve.GetTssPubKey (K := Bytes) some List.length (some ⟨G.x, G.y + 1⟩) = .err "invalid points" ∧
    CheckKeyOnCurve some (2 :: List.replicate 31 0 ++ [5]) = .err "invalid pub key" ∧ CheckKeyOnCurve some [2] = .err "invalid pub key" := by
  decide +kernel
end demo
end Verif.Props.PoolKeys
