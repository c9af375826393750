import Mathlib.LinearAlgebra.Lagrange
import Verif.Spec.RecoveryFiles
import Verif.Props.C58_C60
import Verif.Props.C136
import Verif.Props.C137

/-! # C138: recovering the private key of a pool from the files that nodes wrote -/
set_option linter.unusedSectionVars false
namespace Verif.Props.RecoveryFiles
open Verif.Go Verif.Json Verif.JsonState Verif.Recovery Verif.RecoveryFiles Verif.Curve Verif.Secp Verif.Spec.Recovery Verif.Spec.Secp Verif.Spec.RecoveryFiles
open Polynomial
open Verif.MsgId (Str)
open Verif.Conversion (secp256k1N)
open Verif.Server (LocalState)
open Verif.Props.JsonTexts Verif.Props.Ecdsa Verif.Props.KeyTexts

/-- C138: of a file that a node wrote the tool uses the index and the share that the node saved. -/
theorem c138_share (s : LocalState SaveData) (f : (ZMod secp256k1N)[X]) (x : ZMod secp256k1N) (h : Member f s x) :
    readShare (utf8 (stateText s)) = some (x, f.eval x) := by
  obtain ⟨⟨i, hi, rfl⟩, y, hy, hy'⟩ := h
  unfold readShare
  rw [JsonStorage.c136_state]
  simp only [hi, hy, hy']

theorem file_share {F : Type} {disk : F → Option Bytes} {a : F} {raw : Bytes} (h : disk a = some raw) : getTssSecretFile disk a = readShare raw := by
  unfold getTssSecretFile
  rw [h, Option.bind_some]

theorem file_member {F : Type} {disk : F → Option Bytes} {a : F} {s : LocalState SaveData} {f : (ZMod secp256k1N)[X]} {x : ZMod secp256k1N}
    (h : disk a = some (utf8 (stateText s))) (hx : Member f s x) : Holds (getTssSecretFile disk) f a x := by
  unfold Holds
  rw [file_share h, c138_share s f x hx]

/-- C138: a file is read by the tool exactly as by the node that it belongs to: if the node finds a share under a key, the tool finds the two numbers of that
share in the node's file of the key. -/
theorem c138_as_the_node (dir : Storage.Path) (d : Storage.Disk) (k : String) (s : LocalState SaveData)
    (h : Storage.GetLocalState storageEnv dir k d = .ok s) :
    ∃ p, Storage.getFilePathName storageEnv dir k = .ok p ∧
      ∀ x y, getTssSecretFile (Map.get d) p = some (x, y) ↔
        ∃ i j : Int, s.localData.shareID = some i ∧ s.localData.xi = some j ∧ (i : ZMod secp256k1N) = x ∧ (j : ZMod secp256k1N) = y := by
  unfold Storage.GetLocalState at h
  split at h
  · cases h
  split at h
  · cases h
  · cases h
  rename_i p hp
  split at h
  · cases h
  rename_i buf hb
  split at h
  · cases h
  rename_i s' hs
  cases h
  refine ⟨p, hp, fun x y => ?_⟩
  have hs : readState buf = some s := hs
  unfold getTssSecretFile
  rw [hb]
  show readShare buf = _ ↔ _
  unfold readShare
  rw [hs]
  simp only
  rcases s.localData.shareID with _ | i <;> rcases s.localData.xi with _ | j
  · simp
  · simp
  · simp
  · constructor
    · intro h
      cases h
      exact ⟨i, j, rfl, rfl, rfl, rfl⟩
    · rintro ⟨i', j', h1, h2, h3, h4⟩
      cases h1; cases h2; subst h3; subst h4; rfl

/-! ## keys -/

theorem key_text {f : (ZMod secp256k1N)[X]} {k : Str} (h : KeyOf f k) :
    getTssPubKey (f.eval 0).val = some k ∧ 0 < (f.eval 0).val := by
  obtain ⟨hl, b, q, hb, hq, hQ⟩ := h
  have hlt : (f.eval 0).val < secp256k1N := ZMod.val_lt _
  generalize (f.eval 0).val = d at hQ hlt
  have h33 := c115_key_of_text k b hb
  have hs := (parse_short h33.1 hq).2
  have hm : baseMul d = some q := is_unique' (is_baseMul (hlt.trans N_lt)) hQ
  constructor
  · unfold getTssPubKey pubKeyOf
    rw [hm]
    simp only
    rw [← hs, h33.2.1, hl]
  · rcases Nat.eq_zero_or_pos d with h | h
    · have := (c137_public_key hlt N_pos).2.2 h
      rw [hm] at this; cases this
    · exact h

theorem no_key : parsePubKey (serializeCompressed ⟨0, 0⟩) = none := by decide +kernel

theorem text_inj {a b : Nat} (ha : a < secp256k1N) (hb : b < secp256k1N) (h0 : 0 < b) {k : Str} (h : getTssPubKey a = some k) (h' : getTssPubKey b = some k) :
    a = b := by
  have e1 := c115_law _ _ h
  have e2 := c115_law _ _ h'
  rw [e1] at e2
  have e : pubKeyOf a = pubKeyOf b := Option.some.inj e2
  obtain ⟨q, hq, hQ⟩ := parse_pubKeyOf h0 hb
  rcases Nat.eq_zero_or_pos a with h | h
  · rw [← e] at hq
    have : baseMul a = none := (c137_public_key ha N_pos).2.2 h
    unfold pubKeyOf at hq
    rw [this] at hq
    rw [show parsePubKey _ = none from no_key] at hq
    cases hq
  · obtain ⟨q', hq', hQ'⟩ := parse_pubKeyOf h ha
    rw [e, hq] at hq'
    cases hq'
    have e3 := is_unique' (is_baseMul (ha.trans N_lt)) hQ'
    have e4 := is_unique' (is_baseMul (hb.trans N_lt)) hQ
    exact (c137_public_key ha hb).1.1 (e3.trans e4.symm)

/-! ## runs of the tool -/

section
variable {F : Type} (disk : F → Option Bytes) (lib : Lib) (r : Rand)

theorem main_out {N : ℕ} [Fact N.Prime] {F K : Type} (read : F → Option (ZMod N × ZMod N)) (pubKey : Nat → K) (lib : Lib) (r : Rand) (args : Args F) (out : Out K)
    (h : main read pubKey lib r args = .ok out) : out.pk = pubKey out.sk ∧ out.sk < N := by
  unfold main at h
  simp only at h
  split at h
  · split at h
    · rename_i secret _
      have : secret.val < N := ZMod.val_lt _
      split at h
      · split at h <;> cases h <;> exact ⟨rfl, this⟩
      · cases h; exact ⟨rfl, this⟩
    · cases h
  · cases h

/-- The export does not crash: it needs 32 bytes of the key derivation and 16 random bytes. -/
theorem export_ok (hk : ∀ p s, (lib.kdf p s).length = 32) (hiv : ∀ iv, r.iv = some iv → iv.length = 16) (priv password : Bytes) :
    exportKeyStore lib r priv password ≠ .panic := by
  unfold exportKeyStore
  rcases r.salt with _ | salt
  · intro h; cases h
  rcases hi : r.iv with _ | iv
  · intro h; cases h
  have h16 := hiv iv hi
  simp only [slice, aesCTRXOR]
  rw [if_pos ⟨by omega, by rw [hk]⟩, if_pos ⟨by omega, by rw [hk]⟩]
  simp only [Res.bind]
  have : ((List.take 32 (lib.kdf password salt)).drop 0).length = 32 := by simp [hk]
  rw [if_pos (by rw [this]; simp), if_pos h16]
  simp only
  rcases r.uuid with _ | id <;> intro h <;> cases h

theorem main_ok {N : ℕ} [Fact N.Prime] {F K : Type} (read : F → Option (ZMod N × ZMod N)) (pubKey : Nat → K) (lib : Lib) (r : Rand) (args : Args F)
    (hk : ∀ p s, (lib.kdf p s).length = 32) (hiv : ∀ iv, r.iv = some iv → iv.length = 16) (out : Out K)
    (h : main read pubKey lib r { args with exportPath := [] } = .ok out) : ∃ out', main read pubKey lib r args = .ok out' := by
  unfold main at h ⊢
  simp only at h ⊢
  split at h
  · rename_i hl
    rw [if_pos hl]
    split at h
    · rename_i secret he
      split
      · rename_i hp
        have := export_ok lib r hk hiv (serialize secret.val) args.password
        split
        · exact ⟨_, rfl⟩
        · exact ⟨_, rfl⟩
        · rename_i hx; exact absurd hx this
      · exact ⟨_, rfl⟩
    · cases h
  · cases h

/-- **C138**: given files written by members of a pool for which three shares are enough (at most four members, C58), the tool prints the private key of the pool
and exactly the text of the pool's public key; the private key it prints gives the pool's point. -/
theorem c138_recovers (t : Nat) (ht : t ≤ 2) (f : (ZMod secp256k1N)[X]) (hf : Sharing t f) (k : Str) (hk : KeyOf f k) (args : Args F) (a b c : F) (rest : List F)
    (hfiles : args.files = a :: b :: c :: rest) (sa sb sc : LocalState SaveData) (ha : disk a = some (utf8 (stateText sa)))
    (hb : disk b = some (utf8 (stateText sb))) (hc : disk c = some (utf8 (stateText sc))) (x y z : ZMod secp256k1N) (hx : Member f sa x) (hy : Member f sb y)
    (hz : Member f sc z) (hd : [x, y, z].Nodup) (hkdf : ∀ p s, (lib.kdf p s).length = 32) (hiv : ∀ iv, r.iv = some iv → iv.length = 16) :
    ∃ out, tool disk lib r args = .ok out ∧ out.pk = some k ∧ out.sk = (f.eval 0).val ∧ 0 < out.sk ∧ out.sk < secp256k1N ∧
      Is (baseMul out.sk) ((f.eval 0).val • gen) := by
  have ha' : Holds (getTssSecretFile disk) f a x := file_member ha hx
  have hb' : Holds (getTssSecretFile disk) f b y := file_member hb hy
  have hc' : Holds (getTssSecretFile disk) f c z := file_member hc hz
  have h1 := (Recovery.c58_tool_partial (getTssSecretFile disk) getTssPubKey lib r t ht f hf { args with exportPath := [] } a b c rest hfiles x y z ha' hb' hc' hd).2 rfl
  obtain ⟨out, ho⟩ := main_ok _ _ _ _ _ hkdf hiv _ h1
  have h2 := (Recovery.c58_tool_partial (getTssSecretFile disk) getTssPubKey lib r t ht f hf args a b c rest hfiles x y z ha' hb' hc' hd).1 out ho
  have h3 := key_text hk
  refine ⟨out, ho, h2.2.trans h3.1, h2.1, h2.1 ▸ h3.2, ?_, ?_⟩
  · rw [h2.1]; exact ZMod.val_lt _
  · rw [h2.1]; exact is_baseMul ((ZMod.val_lt _).trans N_lt)

/-- C138: for pools with a sharing of degree 3 (five or six members) what the tool prints is never the pool's public key, whatever files of the pool it is given. -/
theorem c138_wrong_for_larger_pools (f : (ZMod secp256k1N)[X]) (hf : f.natDegree = 3) (k : Str) (hk : KeyOf f k) (args : Args F)
    (hh : ∀ file ∈ args.files, ∃ s x, disk file = some (utf8 (stateText s)) ∧ Member f s x ∧ x ≠ 0) (out : Out (Option Str))
    (ho : tool disk lib r args = .ok out) : out.pk ≠ some k := by
  intro he
  have h1 := Recovery.c58_wrong_for_larger_pools (getTssSecretFile disk) getTssPubKey lib r f hf args
    (fun file => ((getTssSecretFile disk file).map Prod.fst).getD 0) (by
      intro file hm
      obtain ⟨s, x, hs, hx, h0⟩ := hh file hm
      have h := file_member hs hx
      have e : getTssSecretFile disk file = some (x, f.eval x) := h
      have e : ((getTssSecretFile disk file).map Prod.fst).getD 0 = x := by rw [e, Option.map_some, Option.getD_some]
      rw [e]
      exact ⟨h, h0⟩) out ho
  have h2 := main_out _ _ _ _ _ _ ho
  have h3 := key_text hk
  rw [h2.1] at he
  exact h1 (text_inj h2.2 (ZMod.val_lt _) h3.2 he h3.1)

/-- C138: a file that is missing, or that a crash cut off while the node wrote it, among the first three makes the tool crash; no key is printed. -/
theorem c138_torn (args : Args F) (file : F) (hm : file ∈ args.files.take 3) (s : LocalState SaveData) (n : Nat) (hn : n < (utf8 (stateText s)).length)
    (hf : disk file = none ∨ disk file = some ((utf8 (stateText s)).take n)) : tool disk lib r args = .panic := by
  refine Recovery.c58_unreadable _ _ _ _ _ file hm ?_
  show (disk file).bind readShare = none
  rcases hf with h | h
  · rw [h]; rfl
  · rw [h]
    show readShare _ = none
    unfold readShare
    rw [JsonStorage.c136_torn s n hn]

/-- C138: the tool does not compare the files with each other nor the result with the public key they hold: from any three files with shares under different
indices, of whatever pools, it prints the value at 0 of the polynomial of degree at most 2 through the three shares. -/
theorem c138_not_compared (args : Args F) (a b c : F) (rest : List F) (hfiles : args.files = a :: b :: c :: rest) (x y z u v w : ZMod secp256k1N)
    (ha : getTssSecretFile disk a = some (x, u)) (hb : getTssSecretFile disk b = some (y, v)) (hc : getTssSecretFile disk c = some (z, w)) (hd : [x, y, z].Nodup)
    (he : args.exportPath = []) :
    ∃ f : (ZMod secp256k1N)[X], f.natDegree ≤ 2 ∧ f.eval x = u ∧ f.eval y = v ∧ f.eval z = w ∧
      tool disk lib r args = .ok ⟨(f.eval 0).val, getTssPubKey (f.eval 0).val, none⟩ := by
  have hxy : x ≠ y := by rintro rfl; simp at hd
  have hxz : x ≠ z := by rintro rfl; simp at hd
  have hyz : y ≠ z := by rintro rfl; simp at hd
  let nodes : Fin 3 → ZMod secp256k1N := ![x, y, z]
  let vals : Fin 3 → ZMod secp256k1N := ![u, v, w]
  have hinj : Set.InjOn nodes (Finset.univ : Finset (Fin 3)) := by
    intro i _ j _ h
    fin_cases i <;> fin_cases j <;> first | rfl | (exfalso; revert h; simp [nodes, hxy, hxz, hyz, hxy.symm, hxz.symm, hyz.symm])
  let f := Lagrange.interpolate Finset.univ nodes vals
  have hdeg : f.natDegree ≤ 2 := by
    have := Lagrange.degree_interpolate_le vals hinj
    refine natDegree_le_of_degree_le (this.trans ?_)
    simp
  have e (i : Fin 3) : f.eval (nodes i) = vals i := Lagrange.eval_interpolate_at_node vals hinj (Finset.mem_univ i)
  have e0 : f.eval x = u := e 0
  have e1 : f.eval y = v := e 1
  have e2 : f.eval z = w := e 2
  refine ⟨f, hdeg, e0, e1, e2, ?_⟩
  exact (Recovery.c58_tool_partial (getTssSecretFile disk) getTssPubKey lib r 2 le_rfl f hdeg args a b c rest hfiles x y z (by rw [Holds, e0]; exact ha)
    (by rw [Holds, e1]; exact hb) (by rw [Holds, e2]; exact hc) hd).2 he

end

/-! ## the exported file -/

/-- the value that the exported file stands for -/
def storeTree (k : EncryptedKey) : J :=
  .obj
    [("crypto".toList, .obj
      [("cipher".toList, .str "aes-256-ctr".toList),
       ("ciphertext".toList, .str k.cipherText),
       ("cipherparams".toList, .obj [("iv".toList, .str k.iv)]),
       ("kdf".toList, .str "pbkdf2".toList),
       ("kdfparams".toList, .obj [("c".toList, .num "262144".toList), ("dklen".toList, .num "32".toList), ("prf".toList, .str "hmac-sha256".toList),
         ("salt".toList, .str k.salt)]),
       ("mac".toList, .str k.mac)]),
     ("id".toList, .str k.id),
     ("version".toList, .num "1".toList)]

theorem str_value (s : Str) : Spec.Json.IsValue (.str s) (quote s) := .str (c132_quote s)

/-- C138: the exported file is a JSON text and stands for this value. -/
theorem c138_file (k : EncryptedKey) : Spec.Json.IsText (storeTree k) (runes (fileBytes (some k))) := by
  unfold fileBytes
  rw [c132_written]
  refine (c132_text _ _).1 (parse_value ?_)
  refine obj_value (l := [("crypto", _, _), ("id", .str k.id, quote k.id), ("version", .num (natText 1), natText 1)]) ?_
  intro p hp
  simp only [List.mem_cons, List.not_mem_nil, or_false] at hp
  rcases hp with rfl | rfl | rfl
  · refine obj_value (l := [("cipher", .str "aes-256-ctr".toList, quote "aes-256-ctr".toList), ("ciphertext", .str k.cipherText, quote k.cipherText),
       ("cipherparams", .obj [("iv".toList, .str k.iv)], objText [("iv", quote k.iv)]), ("kdf", .str "pbkdf2".toList, quote "pbkdf2".toList),
       ("kdfparams", .obj [("c".toList, .num "262144".toList), ("dklen".toList, .num "32".toList), ("prf".toList, .str "hmac-sha256".toList),
         ("salt".toList, .str k.salt)], objText [("c", natText 262144), ("dklen", natText 32), ("prf", quote "hmac-sha256".toList), ("salt", quote k.salt)]),
       ("mac", .str k.mac, quote k.mac)]) ?_
    intro p hp
    simp only [List.mem_cons, List.not_mem_nil, or_false] at hp
    rcases hp with rfl | rfl | rfl | rfl | rfl | rfl
    · exact str_value _
    · exact str_value _
    · refine obj_value (l := [("iv", .str k.iv, quote k.iv)]) ?_
      intro p hp
      simp only [List.mem_cons, List.not_mem_nil, or_false] at hp
      rcases hp with rfl
      exact str_value _
    · exact str_value _
    · refine obj_value (l := [("c", .num (natText 262144), natText 262144), ("dklen", .num (natText 32), natText 32),
        ("prf", .str "hmac-sha256".toList, quote "hmac-sha256".toList), ("salt", .str k.salt, quote k.salt)]) ?_
      intro p hp
      simp only [List.mem_cons, List.not_mem_nil, or_false] at hp
      rcases hp with rfl | rfl | rfl | rfl
      · exact nat_value _
      · exact nat_value _
      · exact str_value _
      · exact str_value _
    · exact str_value _
  · exact str_value _
  · exact nat_value _

/-- the wallet has the functions that the tool uses, under the names that the file gives -/
structure Serves (w : Wallet) (lib : Lib) : Prop where
  kdf : w.kdf "pbkdf2".toList "hmac-sha256".toList 262144 32 = lib.kdf
  cipher : w.cipher "aes-256-ctr".toList = lib.aes
  keccak : w.keccak = lib.keccak

/-- C138: what a wallet reads in an exported file is what was written, and it opens it with the functions that the tool used. -/
theorem c138_opens (w : Wallet) (lib : Lib) (h : Serves w lib) (k : EncryptedKey) (password : Bytes) :
    openFile w (fileBytes (some k)) password = openKeyStore lib k password := by
  have hp : parse (runes (fileBytes (some k))) = some (storeTree k) := (c132_text _ _).2 (c138_file k)
  unfold openFile
  rw [hp]
  have e : openKeyStore ⟨w.cipher "aes-256-ctr".toList, w.kdf "pbkdf2".toList "hmac-sha256".toList 262144 32, w.keccak⟩
      ⟨k.cipherText, k.iv, k.salt, k.mac, []⟩ password = openKeyStore lib k password := by
    rw [h.kdf, h.cipher, h.keccak]
    rfl
  rw [← e]
  rfl

/-- C138: the file written when the random source fails (C83) opens with no password. -/
theorem c138_null (w : Wallet) (password : Bytes) : openFile w (fileBytes none) password = none := by
  have hp : parse (runes (fileBytes none)) = some .null := (c132_text _ _).2 (by
    unfold fileBytes
    rw [c132_written]
    exact ⟨[], _, [], by simp, no_space, .null, no_space⟩)
  unfold openFile
  rw [hp]
  rfl

section
variable {F : Type} (disk : F → Option Bytes) (lib : Lib) (r : Rand)

/-- C138: the exported file opens with the password of the command line, and what is in it is the private key of the pool. -/
theorem c138_exported (t : Nat) (ht : t ≤ 2) (f : (ZMod secp256k1N)[X]) (hf : Sharing t f) (k : Str) (hk : KeyOf f k) (args : Args F) (a b c : F) (rest : List F)
    (hfiles : args.files = a :: b :: c :: rest) (sa sb sc : LocalState SaveData) (ha : disk a = some (utf8 (stateText sa)))
    (hb : disk b = some (utf8 (stateText sb))) (hc : disk c = some (utf8 (stateText sc))) (x y z : ZMod secp256k1N) (hx : Member f sa x) (hy : Member f sb y)
    (hz : Member f sc z) (hd : [x, y, z].Nodup) (hkdf : ∀ p s, (lib.kdf p s).length = 32) (hiv : ∀ iv, r.iv = some iv → iv.length = 16)
    (hs : r.salt ≠ none) (hi : r.iv ≠ none) (hu : r.uuid ≠ none) (hpath : args.exportPath ≠ []) (hpass : 8 ≤ args.password.length) (w : Wallet) (hw : Serves w lib) :
    ∃ out stored key, tool disk lib r args = .ok out ∧ out.written = some (args.exportPath, some stored) ∧
      openFile w (fileBytes (some stored)) args.password = some key ∧ Bytes.toNat key = (f.eval 0).val ∧
      Is (baseMul (Bytes.toNat key)) ((f.eval 0).val • gen) := by
  obtain ⟨out, ho, -, h2, -, -, h5⟩ := c138_recovers disk lib r t ht f hf k hk args a b c rest hfiles sa sb sc ha hb hc x y z hx hy hz hd hkdf hiv
  have h6 := Recovery.c83_written_iff _ _ _ _ _ _ ho
  rcases hw' : out.written with _ | ⟨path, stored⟩
  · exact absurd hw' (h6.1.2 ⟨hpath, hpass⟩)
  have hpath' : path = args.exportPath := h6.2 _ hw'
  have h7 := Recovery.c83_contains_key_partial _ _ _ _ _ _ ho hs hi hu hkdf _ _ hw'
  rcases stored with _ | stored
  · exact absurd rfl h7
  obtain ⟨key, h8, h9⟩ := Recovery.c60_exported_key _ _ _ _ hkdf _ _ ho _ _ hw'
  subst hpath'
  exact ⟨out, stored, key, ho, hw', (c138_opens w lib hw _ _).trans h8, h9.trans h2, by rw [h9]; exact h5⟩

end

/-! ## cases -/

/-- a saved share with an index and a share -/
def saved (i y : Int) : LocalState SaveData := ⟨"thorpub1".toList, { shareID := some i, xi := some y }, ["a".toList], "a".toList⟩

theorem saved_member (f : (ZMod secp256k1N)[X]) (i y : Int) (h : (y : ZMod secp256k1N) = f.eval (i : ZMod secp256k1N)) :
    Member f (saved i y) (i : ZMod secp256k1N) := ⟨⟨i, rfl, rfl⟩, ⟨y, rfl, h⟩⟩

/-- a + bX + cX² -/
noncomputable def poly (a b c : Int) : (ZMod secp256k1N)[X] :=
  C (a : ZMod secp256k1N) + C (b : ZMod secp256k1N) * X + C (c : ZMod secp256k1N) * X ^ 2

theorem poly_eval (a b c i : Int) : (poly a b c).eval (i : ZMod secp256k1N) = ((a + b * i + c * i ^ 2 : Int) : ZMod secp256k1N) := by
  unfold poly
  simp

theorem poly_zero (a b c : Int) : (poly a b c).eval 0 = (a : ZMod secp256k1N) := by
  unfold poly
  simp

theorem poly_degree (a b c : Int) : (poly a b c).natDegree ≤ 2 := by
  unfold poly
  compute_degree

theorem poly_line (a b : Int) : (poly a b 0).natDegree ≤ 1 := by
  unfold poly
  rw [Int.cast_zero, C_0, zero_mul, add_zero]
  compute_degree

theorem poly_member (a b c i y : Int) (h : y = a + b * i + c * i ^ 2) : Member (poly a b c) (saved i y) (i : ZMod secp256k1N) :=
  saved_member _ _ _ (by rw [poly_eval, h])

theorem val_small (n : Nat) (h : n < secp256k1N) : (((n : Int) : ZMod secp256k1N)).val = n := by
  rw [Int.cast_natCast]
  exact ZMod.val_cast_of_lt h

theorem indices : [((1 : Int) : ZMod secp256k1N), ((2 : Int) : ZMod secp256k1N), ((3 : Int) : ZMod secp256k1N)].Nodup := by
  have h1 := val_small 1 (by decide +kernel)
  have h2 := val_small 2 (by decide +kernel)
  have h3 := val_small 3 (by decide +kernel)
  have h12 : ((1 : Int) : ZMod secp256k1N) ≠ ((2 : Int) : ZMod secp256k1N) := fun h => by
    have := congrArg ZMod.val h
    rw [show ((1 : Int)) = ((1 : Nat) : Int) from rfl, show ((2 : Int)) = ((2 : Nat) : Int) from rfl, h1, h2] at this
    cases this
  have h13 : ((1 : Int) : ZMod secp256k1N) ≠ ((3 : Int) : ZMod secp256k1N) := fun h => by
    have := congrArg ZMod.val h
    rw [show ((1 : Int)) = ((1 : Nat) : Int) from rfl, show ((3 : Int)) = ((3 : Nat) : Int) from rfl, h1, h3] at this
    cases this
  have h23 : ((2 : Int) : ZMod secp256k1N) ≠ ((3 : Int) : ZMod secp256k1N) := fun h => by
    have := congrArg ZMod.val h
    rw [show ((2 : Int)) = ((2 : Nat) : Int) from rfl, show ((3 : Int)) = ((3 : Nat) : Int) from rfl, h2, h3] at this
    cases this
  simp only [List.nodup_cons, List.mem_cons, List.not_mem_nil, or_false, not_or, not_false_eq_true, List.nodup_nil, and_true]
  exact ⟨⟨h12, h13⟩, h23⟩

/-- every sharing of a secret has a key text -/
theorem has_text (f : (ZMod secp256k1N)[X]) (h : 0 < (f.eval 0).val) : ∃ k, KeyOf f k := by
  have hlt : (f.eval 0).val < secp256k1N := ZMod.val_lt _
  generalize hd : (f.eval 0).val = d at h hlt
  obtain ⟨q, hq, hQ⟩ := parse_pubKeyOf h hlt
  have hl : (pubKeyOf d).length = 33 := by
    have hm : baseMul d = some q := is_unique' (is_baseMul (hlt.trans N_lt)) hQ
    unfold pubKeyOf
    rw [hm]
    exact serialize_length (is_onCurve hQ).1
  obtain ⟨k, -, hk, hk'⟩ := c115_text_of_key _ hl
  exact ⟨k, hk, _, q, hk', hq, by rw [hd]; exact hQ⟩

/-- C138: mixed up files are not noticed: two files of one pool and one of another give a key of neither. -/
theorem c138_mixed : ∃ (f g : (ZMod secp256k1N)[X]) (sa sb sc : LocalState SaveData) (x y z : ZMod secp256k1N), Sharing 1 f ∧ Sharing 1 g ∧ Member f sa x ∧
    Member f sb y ∧ Member g sc z ∧ ∀ (lib : Lib) (r : Rand) (args : Args (LocalState SaveData)), args.files = [sa, sb, sc] → args.exportPath = [] →
      ∃ out, tool (fun s => some (utf8 (stateText s))) lib r args = .ok out ∧ out.sk ≠ (f.eval 0).val ∧ out.sk ≠ (g.eval 0).val := by
  refine ⟨poly 5 2 0, poly 6 3 0, saved 1 7, saved 2 9, saved 3 15, _, _, _, poly_line _ _, poly_line _ _, poly_member _ _ _ _ _ (by norm_num),
    poly_member _ _ _ _ _ (by norm_num), poly_member _ _ _ _ _ (by norm_num), ?_⟩
  intro lib r args hf he
  have h := (Recovery.c58_tool_partial (getTssSecretFile fun s => some (utf8 (stateText s))) getTssPubKey lib r 2 le_rfl (poly 9 (-4) 2) (poly_degree _ _ _) args
    (saved 1 7) (saved 2 9) (saved 3 15) [] hf _ _ _ (file_member rfl (poly_member 9 (-4) 2 1 7 (by norm_num))) (file_member rfl (poly_member 9 (-4) 2 2 9 (by norm_num)))
    (file_member rfl (poly_member 9 (-4) 2 3 15 (by norm_num))) indices).2 he
  refine ⟨_, h, ?_, ?_⟩
  · show ((poly 9 (-4) 2).eval 0).val ≠ _
    rw [poly_zero, poly_zero]
    have h1 := val_small 9 (by decide +kernel)
    have h2 := val_small 5 (by decide +kernel)
    intro h
    exact absurd (h1.symm.trans (h.trans h2)) (by decide)
  · show ((poly 9 (-4) 2).eval 0).val ≠ _
    rw [poly_zero, poly_zero]
    have h1 := val_small 9 (by decide +kernel)
    have h2 := val_small 6 (by decide +kernel)
    intro h
    exact absurd (h1.symm.trans (h.trans h2)) (by decide)

/-- functions for the cases: the key derivation repeats the first byte of the password -/
def lib : Lib := ⟨fun key ctr i => key.headD 0 + ctr.getD i 0, fun p _ => List.replicate 32 (p.headD 7), fun b => b.take 2⟩

/-- random values -/
def rand : Rand := ⟨some (List.replicate 32 1), some (List.replicate 16 2), some "id".toList⟩

/-- a wallet for them -/
def wallet : Wallet := ⟨fun _ _ _ _ => lib.kdf, fun _ => lib.aes, lib.keccak⟩

/-- a pool of two or three members with the private key 5 -/
example : ∃ k out stored key, KeyOf (poly 5 2 0) k ∧
    tool (fun s => some (utf8 (stateText s))) lib rand ⟨none, [47], [1, 2, 3, 4, 5, 6, 7, 8], [saved 1 7, saved 2 9, saved 3 11]⟩ = .ok out ∧
    out.written = some ([47], some stored) ∧ openFile wallet (fileBytes (some stored)) [1, 2, 3, 4, 5, 6, 7, 8] = some key ∧ Bytes.toNat key = 5 := by
  have h5 : ((poly 5 2 0).eval 0).val = 5 := by
    rw [poly_zero]
    exact val_small 5 (by decide +kernel)
  obtain ⟨k, hk⟩ := has_text (poly 5 2 0) (by rw [h5]; decide)
  obtain ⟨out, stored, key, h1, h2, h3, h4, -⟩ := c138_exported (fun s => some (utf8 (stateText s))) lib rand 1 (by decide) (poly 5 2 0) (poly_line _ _) k hk
    ⟨none, [47], [1, 2, 3, 4, 5, 6, 7, 8], [saved 1 7, saved 2 9, saved 3 11]⟩ _ _ _ [] rfl _ _ _ rfl rfl rfl _ _ _
    (poly_member _ _ _ 1 7 (by norm_num)) (poly_member _ _ _ 2 9 (by norm_num)) (poly_member _ _ _ 3 11 (by norm_num)) indices
    (fun p s => List.length_replicate) (fun iv h => by cases h; rfl) (by decide) (by decide) (by decide) (by decide) (by decide) wallet ⟨rfl, rfl, rfl⟩
  exact ⟨k, out, stored, key, hk, h1, h2, h3, h4.trans h5⟩

/-- a pool of five members with a sharing 5 + X³, whose key is not found -/
example : ∃ (f : (ZMod secp256k1N)[X]) (k : Str) (out : Out (Option Str)), f.natDegree = 3 ∧ KeyOf f k ∧
    tool (fun s => some (utf8 (stateText s))) lib rand ⟨some 4, [], [], [saved 1 6, saved 2 13, saved 3 32]⟩ = .ok out ∧ out.pk ≠ some k := by
  let f : (ZMod secp256k1N)[X] := C ((5 : Int) : ZMod secp256k1N) + X ^ 3
  have hev (i : Int) : f.eval (i : ZMod secp256k1N) = ((5 + i ^ 3 : Int) : ZMod secp256k1N) := by simp [f]
  have hm (i y : Int) (h : y = 5 + i ^ 3) : Member f (saved i y) (i : ZMod secp256k1N) := saved_member _ _ _ (by rw [hev, h])
  have hdeg : f.natDegree = 3 := by
    show (C ((5 : Int) : ZMod secp256k1N) + X ^ 3).natDegree = 3
    compute_degree!
  have h5 : (f.eval 0).val = 5 := by
    have : f.eval 0 = ((5 : Int) : ZMod secp256k1N) := by simp [f]
    rw [this]
    exact val_small 5 (by decide +kernel)
  obtain ⟨k, hk⟩ := has_text f (by rw [h5]; decide)
  obtain ⟨g, -, -, -, -, ho⟩ := c138_not_compared (fun s => some (utf8 (stateText s))) lib rand ⟨some 4, [], [], [saved 1 6, saved 2 13, saved 3 32]⟩ _ _ _ [] rfl _ _ _ _ _ _
    (file_member (disk := fun s => some (utf8 (stateText s))) rfl (hm 1 6 (by norm_num))) (file_member (disk := fun s => some (utf8 (stateText s))) rfl (hm 2 13 (by norm_num)))
    (file_member (disk := fun s => some (utf8 (stateText s))) rfl (hm 3 32 (by norm_num))) indices rfl
  have hne (n : Nat) (h0 : 0 < n) (h : n < secp256k1N) : ((n : Int) : ZMod secp256k1N) ≠ 0 := fun he => by
    have := val_small n h
    rw [he, ZMod.val_zero] at this
    omega
  refine ⟨f, k, _, hdeg, hk, ho, c138_wrong_for_larger_pools _ lib rand f hdeg k hk _ ?_ _ ho⟩
  intro file hf
  simp only [List.mem_cons, List.not_mem_nil, or_false] at hf
  rcases hf with rfl | rfl | rfl
  · exact ⟨_, _, rfl, hm 1 6 (by norm_num), hne 1 (by decide) (by decide +kernel)⟩
  · exact ⟨_, _, rfl, hm 2 13 (by norm_num), hne 2 (by decide) (by decide +kernel)⟩
  · exact ⟨_, _, rfl, hm 3 32 (by norm_num), hne 3 (by decide) (by decide +kernel)⟩

/-- a cut-off file -/
example : tool (fun b : Bool => if b then some (utf8 (stateText (saved 1 6))) else some ((utf8 (stateText (saved 2 13))).take 3)) lib rand
    ⟨none, [], [], [true, false, true]⟩ = .panic :=
  c138_torn _ _ _ _ false (by decide) (saved 2 13) 3 (by decide +kernel) (.inr rfl)

end Verif.Props.RecoveryFiles
