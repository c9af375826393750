import Verif.Model.Main
import Verif.Props.C124
import Verif.Props.C131
import Verif.Props.C137
import Verif.Props.C142

set_option linter.unusedSectionVars false

/-!
# C143: from the command line and the secret key to a running node
-/
namespace Verif.Props.Main
open Verif.Main Verif.Go
open Verif.Bech32 (Str encodeKey decodeKey)
open Verif.Multiaddr (Addr Comp)
open Verif.Conversion (secp256k1N)
open Verif.Secp (pubKeyOf)
open Verif.Spec.Secp (Is)
open Verif.Spec.CommandLine (Written Readable Ends Means)

variable {cid : Str → Option Bytes} {duration int : Str → Option Int}

/-- Specification: the text of a secret key, as a user types it in: base64 (line ends do not matter) of the 64 hexadecimal digits of 32 bytes -/
def KeyText (pw : Str) (d : Bytes) : Prop := ∃ s extra, Spec.Base64.Writes (Spec.Base64.unbroken pw) s extra ∧ Props.Conv.Hex s d ∧ d.length = 32

/-- Specification: a command line asks for the settings `c` -/
def Asks (cid : Str → Option Bytes) (duration int : Str → Option Int) (args : List Str) (c : Flags.Conf Addr) : Prop :=
  ∃ (l : List Written) (rest : List Str), args = l.flatMap Written.args ++ rest ∧
    (∀ w ∈ l, w.Allowed ∧ Readable ⟨duration, int, Multiaddr.newMultiaddr cid⟩ w.says) ∧ Ends rest ∧
    Means ⟨duration, int, Multiaddr.newMultiaddr cid⟩ (l.map Written.says) c ∧ c.help = false

theorem begin_iff (args : List Str) (c : Flags.Conf Addr) :
    Flags.begin_ ⟨duration, int, Multiaddr.newMultiaddr cid⟩ args = .go c ↔ Asks cid duration int args c := by
  rw [Props.CommandLine.c124_goes_on, Props.CommandLine.c124_reads_partial]
  constructor
  · rintro ⟨⟨l, rest, h1, h2, h3, h4⟩, h5⟩
    exact ⟨l, rest, h1, h2, h3, h4, h5⟩
  · rintro ⟨l, rest, h1, h2, h3, h4, h5⟩
    exact ⟨⟨l, rest, h1, h2, h3, h4⟩, h5⟩

theorem key_read {pw : Str} {d : Bytes} (h : KeyText pw d) (pad : Nat) :
    Conversion.GetPriKey pad (Base64.decode pw) = .ok d ∧ Conversion.GetPriKeyRawBytes d = d := by
  obtain ⟨s, extra, h1, h2, h3⟩ := h
  rw [(Props.MessageTexts.c131_read pw s).2 ⟨extra, h1⟩]
  exact Props.Conv.c07_prikey_exact_partial pad s d h2 h3

/-! ## the key of a node -/

theorem toNat_small {d : Bytes} (h : d.length = 32) : Bytes.toNat d < 2 ^ 256 := by
  have := Bytes.toNat_lt d
  rw [h] at this
  exact this

theorem pubKey_length (d : Bytes) (h : d.length = 32) : (pubKeyOf (Bytes.toNat d)).length = 33 := by
  have hq := Props.Ecdsa.is_baseMul (toNat_small h)
  unfold pubKeyOf
  rcases hb : Secp.baseMul (Bytes.toNat d) with _ | q
  · decide +kernel
  · rw [hb] at hq
    exact Props.KeyTexts.serialize_length (Props.Ecdsa.is_onCurve hq).1

theorem pubKey_text (d : Bytes) (h : d.length = 32) : ∃ k, encodeKey (pubKeyOf (Bytes.toNat d)) = some k ∧ Props.KeyTexts.Lower k ∧ decodeKey k = some (pubKeyOf (Bytes.toNat d)) :=
  Props.KeyTexts.c115_text_of_key _ (pubKey_length d h)

/-! ## what a start comes to -/

/-- Specification: the addresses that a node is told to use: a port, and perhaps an external IPv4 address -/
def Own (c : Flags.Conf Addr) (listen : Addr) (external : Option Addr) : Prop :=
  ∃ p : Fin 65536, c.port = (p.1 : Int) ∧ listen = [.ip4 0 0 0 0, .tcp p] ∧
    (c.externalIP = [] ∧ external = none ∨ ∃ w x y z : Fin 256, c.externalIP = Multiaddr.ipText w x y z ∧ external = some [.ip4 w x y z, .tcp p])

theorem own_read {c : Flags.Conf Addr} {listen : Addr} {external : Option Addr} (h : Own c listen external) :
    Multiaddr.newCommunication cid c.port c.externalIP = .ok (listen, external) := by
  obtain ⟨p, h1, rfl, ⟨h2, rfl⟩ | ⟨w, x, y, z, h2, rfl⟩⟩ := h
  · rw [h1, h2]; exact (Props.Multiaddr.c142_listen p).1
  · rw [h1, h2]; exact (Props.Multiaddr.c142_listen p).2.1 w x y z

/-- Specification: the folder can be used: it is there or can be made -/
def Folder (sys : Sys) (home : Str) : Prop := home = [] ∨ sys.stat (folderOf sys.cwd home) ≠ .missing ∨ sys.mkdir (folderOf sys.cwd home) = true

/-- Specification: where a node keeps its files -/
def folder (sys : Sys) (home : Str) : Option Storage.Path := if home = [] then none else some (folderOf sys.cwd home)

theorem folder_read (sys : Sys) (home : Str) : (Folder sys home → NewFileStateMgr sys home = .ok (folder sys home)) ∧
    (¬ Folder sys home → NewFileStateMgr sys home = .err "mkdir") := by
  unfold NewFileStateMgr Folder folder
  by_cases h0 : home = []
  · subst h0; simp
  · have hl : home.length > 0 := List.length_pos_iff.2 h0
    rw [if_pos hl, if_neg h0]
    by_cases hs : sys.stat (folderOf sys.cwd home) = .missing
    · rw [if_pos hs]
      cases hm : sys.mkdir (folderOf sys.cwd home) <;> simp [h0, hs]
    · rw [if_neg hs]; simp [h0, hs]

/-- Specification: the peers a node tries to reach: those it finds in its address book, and those of the command line -/
def known (cid : Str → Option Bytes) (sys : Sys) (c : Flags.Conf Addr) : List Addr :=
  (match Storage.RetrieveP2PAddresses (Multiaddr.env cid) (folder sys c.home) sys.disk with
    | .ok saved => saved
    | _ => []) ++ c.peers

/-- Specification: the network lets a node in: nobody is to be reached, or all known peers have peer ids, one is reached in one of five attempts, and one answers the ping -/
def LetsIn (w : Startup.World Addr) (peers : List Addr) : Prop :=
  w.hostOk = true ∧ w.dhtOk = true ∧ (peers = [] ∨ (∀ p ∈ peers, ∃ q a, Multiaddr.addrInfo p = some (q, a)) ∧
    (∃ i : Fin 5, ∃ p ∈ peers, (w.attempts i).reached p = true) ∧ ∃ p ∈ peers, w.pong p = true)

theorem known_eq (sys : Sys) (c : Flags.Conf Addr) :
    Startup.bootstrapPeers (Multiaddr.env cid) ⟨true, true, folder sys c.home, c.peers, true, none, true⟩ sys.disk = known cid sys c := by
  unfold Startup.bootstrapPeers known
  split <;> simp_all

theorem node_peers (s : Startup.Settings Addr) (generated : Option Bool) (w : Startup.World Addr) (d : Storage.Disk) (n : Startup.Node Addr)
    (h : Startup.NewTss (Multiaddr.env cid) Multiaddr.hasID s generated w d = .ok n) : n.peers = Startup.bootstrapPeers (Multiaddr.env cid) s d := by
  unfold Startup.NewTss at h
  iterate 6 (split at h; · cases h)
  obtain ⟨_, -, h⟩ := Res.bind_eq_ok.1 h
  cases h
  rfl

theorem started (c : Flags.Conf Addr) (key : Bytes) (hk : key.length = 32) (sys : Sys) {listen : Addr} {external : Option Addr} (ho : Own c listen external) (n : Node) :
    newTss cid c key sys = .ok n ↔ (Folder sys c.home ∧ sys.generated = some true ∧ LetsIn sys.world (known cid sys c)) ∧
      ∃ k, encodeKey (pubKeyOf (Bytes.toNat key)) = some k ∧ n = ⟨k, hostID key, listen, external, folder sys c.home, known cid sys c⟩ := by
  obtain ⟨k, hk1, -, -⟩ := pubKey_text key hk
  have hraw : Conversion.GetPriKeyRawBytes key = key := by simp [Conversion.GetPriKeyRawBytes, hk, List.take_of_length_le hk.le]
  unfold newTss
  rw [hk1, hraw, own_read ho]
  by_cases hf : Folder sys c.home
  · rw [(folder_read sys c.home).1 hf]
    simp only [Res.bind]
    have hs := Props.Startup.c84_starts_iff (Multiaddr.env cid) Multiaddr.hasID ⟨true, true, folder sys c.home, c.peers, true, none, true⟩ sys.generated
      { sys.world with keyOk := decide (key.length = 32) } sys.disk
    rw [known_eq] at hs
    have hu : Props.Startup.Usable (⟨true, true, folder sys c.home, c.peers, true, none, true⟩ : Startup.Settings Addr) sys.generated
        { sys.world with keyOk := decide (key.length = 32) } ↔ sys.generated = some true ∧ sys.world.hostOk = true ∧ sys.world.dhtOk = true := by
      constructor
      · rintro ⟨-, -, -, h, -, -, h1, h2⟩
        exact ⟨h.resolve_left (by simp), h1, h2⟩
      · rintro ⟨h, h1, h2⟩
        exact ⟨rfl, rfl, rfl, .inr h, rfl, by simp [hk], h1, h2⟩
    rw [hu] at hs
    have hid : ∀ p : Addr, Multiaddr.hasID p = true ↔ ∃ q a, Multiaddr.addrInfo p = some (q, a) := by
      intro p
      unfold Multiaddr.hasID
      rw [Option.isSome_iff_exists, Prod.exists]
    constructor
    · intro h
      split at h
      · rename_i m hm
        cases h
        have := hs.1 ⟨m, hm⟩
        refine ⟨⟨hf, this.1.1, this.1.2.1, this.1.2.2, this.2.imp id fun h => ⟨fun p hp => (hid p).1 (h.1 p hp), h.2⟩⟩, k, rfl, ?_⟩
        rw [node_peers _ _ _ _ _ hm, known_eq]
      · cases h
      · cases h
    · rintro ⟨⟨-, h1, h2, h3, h4⟩, k', hk', rfl⟩
      cases hk'
      obtain ⟨m, hm⟩ := hs.2 ⟨⟨h1, h2, h3⟩, h4.imp id fun h => ⟨fun p hp => (hid p).2 (h.1 p hp), h.2⟩⟩
      rw [hm]
      dsimp only
      rw [node_peers _ _ _ _ _ hm, known_eq]
  · rw [(folder_read sys c.home).2 hf]
    simp only [Res.bind]
    constructor
    · intro h; cases h
    · rintro ⟨h, -⟩; exact absurd h.1 hf

/-- the same for any text that the program takes for a key -/
theorem runs_of_key (args : List Str) (sys : Sys) (pw : Str) (d : Bytes) (hpw : sys.password = some pw) (hd : Conversion.GetPriKey sys.pad (Base64.decode pw) = .ok d) (hl : d.length = 32) (c : Flags.Conf Addr)
    (listen : Addr) (external : Option Addr) (ho : Own c listen external) (n : Node) :
    main cid duration int args sys = .running n c ↔
      (Asks cid duration int args c ∧ Folder sys c.home ∧ sys.generated = some true ∧ LetsIn sys.world (known cid sys c)) ∧
      ∃ k, encodeKey (pubKeyOf (Bytes.toNat d)) = some k ∧ n = ⟨k, hostID d, listen, external, folder sys c.home, known cid sys c⟩ := by
  rw [and_assoc, ← started c d hl sys ho n, ← begin_iff]
  unfold main
  rcases hb : Flags.begin_ ⟨duration, int, Multiaddr.newMultiaddr cid⟩ args with _ | _ | c'
  · simp
  · simp
  · simp only [hpw, hd, Flags.Begin.go.injEq]
    constructor
    · intro h
      split at h
      · cases h
      · cases h
      · rename_i m hm
        cases h
        exact ⟨rfl, hm⟩
    · rintro ⟨rfl, hm⟩
      rw [hm]

/-- C143 (partial; missing: secret keys that are not 32 bytes and settings that are not addresses, see `c143_short_key` and C142). With the text of a secret key typed in and
settings for its own addresses, the program comes to run a node exactly when the command line asks for it, the folder can be used, the parameters for key generation are made and
valid, and the network lets it in. It then runs with the settings asked for: its public key is that of the secret key, its peer id is that of its public key, it listens at the
port and announces the address it was told, and keeps its files in its folder. -/
theorem c143_runs_partial (args : List Str) (sys : Sys) (pw : Str) (d : Bytes) (hpw : sys.password = some pw) (hd : KeyText pw d) (c : Flags.Conf Addr)
    (listen : Addr) (external : Option Addr) (ho : Own c listen external) (n : Node) :
    main cid duration int args sys = .running n c ↔
      (Asks cid duration int args c ∧ Folder sys c.home ∧ sys.generated = some true ∧ LetsIn sys.world (known cid sys c)) ∧
      ∃ k, encodeKey (pubKeyOf (Bytes.toNat d)) = some k ∧ n = ⟨k, hostID d, listen, external, folder sys c.home, known cid sys c⟩ :=
  runs_of_key args sys pw d hpw (key_read hd sys.pad).1 (by obtain ⟨_, _, -, -, h⟩ := hd; exact h) c listen external ho n

/-- C143: a node whose secret key is a number from 1 to the order of the curve has a public key on the curve; whoever knows this key computes the peer id under which the node
is in the network. -/
theorem c143_identity (d : Bytes) (hl : d.length = 32) (h0 : 0 < Bytes.toNat d) (hN : Bytes.toNat d < secp256k1N) (k : Str)
    (hk : encodeKey (pubKeyOf (Bytes.toNat d)) = some k) :
    Props.Ecdsa.Names k (Bytes.toNat d • Spec.Secp.gen) ∧ Curve.CheckKeyOnCurve decodeKey k = .ok true ∧
    Conversion.GetPeerIDFromPubKey RealKeys.codec k = .ok (hostID d) ∧ Conversion.GetPubKeyFromPeerID RealKeys.codec (hostID d) = .ok k := by
  obtain ⟨k', hk', hlow, hdec⟩ := pubKey_text d hl
  rw [hk] at hk'
  cases hk'
  obtain ⟨q, hq, hq'⟩ := Props.Ecdsa.parse_pubKeyOf h0 hN
  have hc : Curve.CheckKeyOnCurve decodeKey k = .ok true :=
    (Props.PoolKeys.c114_check decodeKey k).1.2 ⟨_, q, hdec, (Props.PoolKeys.parse_iff _ _).1 hq⟩
  obtain ⟨p, g1, g2⟩ := Props.KeyTexts.c115_peer_of_key k hc
  obtain ⟨b, h1, h2, -⟩ := Props.PeerTexts.c127_key (fun _ => none) k hc
  rw [hdec] at h1
  cases h1
  have hid : Spec.PeerId.ofKey (pubKeyOf (Bytes.toNat d)) = hostID d := Props.PeerTexts.ofKey_eq (pubKey_length d hl)
  rw [hid] at h2
  rw [h2] at g1
  cases g1
  rw [hlow] at g2
  exact ⟨⟨_, q, hdec, hq, hq'⟩, hc, h2, g2⟩

/-- C143: nodes with different secret keys have different peer ids and different public keys. -/
theorem c143_different (d d' : Bytes) (hl : d.length = 32) (hl' : d'.length = 32) (hN : Bytes.toNat d < secp256k1N) (hN' : Bytes.toNat d' < secp256k1N)
    (h0 : 0 < Bytes.toNat d) (h0' : 0 < Bytes.toNat d')
    (k k' : Str) (hk : encodeKey (pubKeyOf (Bytes.toNat d)) = some k) (hk' : encodeKey (pubKeyOf (Bytes.toNat d')) = some k') (h : hostID d = hostID d' ∨ k = k') : d = d' := by
  have hp : pubKeyOf (Bytes.toNat d) = pubKeyOf (Bytes.toNat d') := by
    rcases h with h | rfl
    · exact List.append_cancel_left h
    · have h1 := Props.KeyTexts.c115_law _ _ hk
      rw [Props.KeyTexts.c115_law _ _ hk'] at h1
      exact (Option.some.inj h1).symm
  obtain ⟨q, hq, hq'⟩ := Props.Ecdsa.parse_pubKeyOf h0 hN
  obtain ⟨r, hr, hr'⟩ := Props.Ecdsa.parse_pubKeyOf h0' hN'
  rw [hp, hr] at hq
  cases hq
  have hb := Secp.is_unique' (Props.Ecdsa.is_baseMul (hN.trans Props.Ecdsa.N_lt)) hq'
  have hb' := Secp.is_unique' (Props.Ecdsa.is_baseMul (hN'.trans Props.Ecdsa.N_lt)) hr'
  exact Bytes.toNat_inj (hl.trans hl'.symm) ((Props.Ecdsa.c137_public_key hN hN').1.1 (hb.trans hb'.symm))

/-! ## keys that are not checked -/

/-- C143: the secret key is not checked to be below the order of the curve: adding the order gives another key text with the same identity. -/
theorem c143_above_order (d d' : Bytes) (hl' : d'.length = 32) (h : Bytes.toNat d' = Bytes.toNat d + secp256k1N) : hostID d' = hostID d := by
  have h2 := toNat_small hl'
  have h1 : Bytes.toNat d < 2 ^ 256 := by omega
  have e : Bytes.toNat d' • Spec.Secp.gen = Bytes.toNat d • Spec.Secp.gen := by
    rw [h, add_nsmul, Secp.order_gen, add_zero]
  have hb := Props.Ecdsa.is_baseMul h2
  rw [e] at hb
  have := Secp.is_unique' hb (Props.Ecdsa.is_baseMul h1)
  unfold hostID pubKeyOf
  rw [this]

theorem zero_parse : Curve.parsePubKey (pubKeyOf 0) = none := by decide +kernel

/-- C143 is false for the key zero: it is accepted and the node runs like any other (`c143_runs_partial`), but its public key is no point of the curve and nobody can compute its
peer id from it. -/
theorem c143_zero_key (d : Bytes) (hl : d.length = 32) (h : Bytes.toNat d = 0) : ∃ k, encodeKey (pubKeyOf (Bytes.toNat d)) = some k ∧
    (∀ p, Conversion.GetPeerIDFromPubKey RealKeys.codec k ≠ .ok p) ∧ Curve.CheckKeyOnCurve decodeKey k ≠ .ok true := by
  obtain ⟨k, h1, -, h2⟩ := pubKey_text d hl
  refine ⟨k, h1, ?_, ?_⟩
  · intro p hp
    unfold Conversion.GetPeerIDFromPubKey at hp
    rw [Props.KeyTexts.codec_dec, Props.KeyTexts.codec_peerOf, h2] at hp
    dsimp only at hp
    rw [h, RealKeys.peerOf, zero_parse] at hp
    cases hp
  · intro hc
    obtain ⟨b, pt, h3, h4⟩ := (Props.PoolKeys.c114_check decodeKey k).1.1 hc
    rw [h2] at h3
    cases h3
    have := (Props.PoolKeys.parse_iff _ _).2 h4
    rw [h, zero_parse] at this
    cases this

/-- a text of 16 bytes as a key -/
def shortText : Str := Base64.encode (List.replicate 32 48)

theorem short_decode : Base64.decode shortText = some (List.replicate 32 48) := Props.MessageTexts.c131_roundtrip _

theorem short_read : Conversion.GetPriKey 0 (some (List.replicate 32 48)) = .ok (List.replicate 16 0 ++ List.replicate 16 48) := by decide +kernel

/-- C143 is false for keys of the wrong length: 16 bytes are typed in as a key, and the node runs with a key of 32 bytes which nobody chose (the 16 bytes and half of their own
digits). -/
theorem c143_short_key (args : List Str) (sys : Sys) (hpw : sys.password = some shortText) (hpad : sys.pad = 0) (c : Flags.Conf Addr)
    (listen : Addr) (external : Option Addr) (ho : Own c listen external) (n : Node) :
    (∃ s d, Base64.decode shortText = some s ∧ Props.Conv.Hex s d ∧ d.length = 16) ∧
    (main cid duration int args sys = .running n c ↔
      (Asks cid duration int args c ∧ Folder sys c.home ∧ sys.generated = some true ∧ LetsIn sys.world (known cid sys c)) ∧
      ∃ k, encodeKey (pubKeyOf (Bytes.toNat (List.replicate 16 0 ++ List.replicate 16 48))) = some k ∧
        n = ⟨k, hostID (List.replicate 16 0 ++ List.replicate 16 48), listen, external, folder sys c.home, known cid sys c⟩) := by
  refine ⟨⟨_, List.replicate 16 0, short_decode, (Props.Conv.hexDecode_iff _ _).1 (by decide +kernel), by simp⟩, ?_⟩
  refine runs_of_key args sys shortText _ hpw ?_ (by decide) c listen external ho n
  rw [hpad, short_decode]
  exact short_read

/-- C143: a text with a wrong letter, or that is no hexadecimal text, is never taken for a key. -/
theorem c143_no_key (args : List Str) (sys : Sys) (pw : Str) (hpw : sys.password = some pw)
    (h : ∀ s d extra, Spec.Base64.Writes (Spec.Base64.unbroken pw) s extra → ¬ Props.Conv.Hex s d) (n : Node) (c : Flags.Conf Addr) :
    main cid duration int args sys ≠ .running n c := by
  intro hm
  unfold main at hm
  split at hm
  · cases hm
  · cases hm
  · rw [hpw] at hm
    dsimp only at hm
    obtain ⟨e, he⟩ := Props.Conv.c07_prikey_refused sys.pad (Base64.decode pw) (fun s d hs => by
      obtain ⟨extra, hw⟩ := (Props.MessageTexts.c131_read pw s).1 hs
      exact h s d extra hw)
    rw [he] at hm
    cases hm

/-! ## the default folder -/

/-- C143 is false without `-home`: the node runs, but the peers it comes to know are never saved, and none are read at its next start. -/
theorem c143_no_home (sys : Sys) (c : Flags.Conf Addr) (h : c.home = []) (σ : Shuffle (Bytes × List Addr)) (book : Map Bytes (List Addr)) (f : Option Storage.Fault) :
    Folder sys c.home ∧ (Storage.SaveAddressBook (Multiaddr.env cid) (folder sys c.home) σ book f sys.disk).1 = sys.disk ∧ known cid sys c = c.peers := by
  refine ⟨.inl h, ?_, ?_⟩
  · rw [folder, if_pos h]; rfl
  · unfold known; rw [folder, if_pos h]; rfl

/-- C143: with a folder, a node that is started again with the same folder tries the peers it saved and those of the command line. -/
theorem c143_again (sys : Sys) (c : Flags.Conf Addr) (h : c.home ≠ []) (σ : Shuffle (Bytes × List Addr)) (book : Map Bytes (List Addr)) (g : Props.Multiaddr.GoodBook book)
    (f : Option Storage.Fault) (d : Storage.Disk) (hok : (Storage.SaveAddressBook (Multiaddr.env cid) (folder sys c.home) σ book f d).2 = .ok ())
    (hdisk : sys.disk = (Storage.SaveAddressBook (Multiaddr.env cid) (folder sys c.home) σ book f d).1) (p : Addr) :
    p ∈ known cid sys c ↔ (∃ q addrs a, (q, addrs) ∈ book ∧ a ∈ addrs ∧ ¬ "127.0.0.1".toList <:+: Multiaddr.text a ∧ p = a ++ [.p2p q]) ∨ p ∈ c.peers := by
  rw [folder, if_neg h] at hok
  rw [← known_eq, folder, if_neg h]
  rw [folder, if_neg h] at hdisk
  rw [hdisk]
  exact Props.Startup.saved_peers_on (Multiaddr.env cid) (fun (a : Addr) (q : Bytes) => a ++ [Comp.p2p q]) _ _ rfl σ book f d hok Props.Multiaddr.env_text
    (Props.Multiaddr.good_lines g) p

/-! ## other ends -/

/-- **C143**: the program stops for want of a key exactly when the command line asks for a node and no key is typed in. Asked for a node and given a text that is no key, it stops
with a message; it never crashes there. -/
theorem c143_stops (args : List Str) (sys : Sys) :
    (main cid duration int args sys = .noKey ↔ (∃ c, Asks cid duration int args c) ∧ sys.password = none) ∧
    (∀ c pw, Asks cid duration int args c → sys.password = some pw →
      (∀ s d extra, Spec.Base64.Writes (Spec.Base64.unbroken pw) s extra → ¬ Props.Conv.Hex s d) → main cid duration int args sys = .fatal) := by
  constructor
  · constructor
    · intro hm
      unfold main at hm
      split at hm
      · cases hm
      · cases hm
      · rename_i c hc
        refine ⟨⟨c, (begin_iff args c).1 hc⟩, ?_⟩
        split at hm
        · assumption
        · split at hm
          · cases hm
          · cases hm
          · split at hm <;> cases hm
    · rintro ⟨⟨c, hc⟩, hp⟩
      unfold main
      rw [(begin_iff args c).2 hc, hp]
  · intro c pw hc hpw h
    unfold main
    rw [(begin_iff args c).2 hc, hpw]
    dsimp only
    obtain ⟨e, he⟩ := Props.Conv.c07_prikey_refused sys.pad (Base64.decode pw) (fun s d hs => by
      obtain ⟨extra, hw⟩ := (Props.MessageTexts.c131_read pw s).1 hs
      exact h s d extra hw)
    rw [he]

/-- Specification: a name of a folder -/
def Name (p : Str) : Prop := '/' ∉ p ∧ p ≠ [] ∧ p ≠ ".".toList ∧ p ≠ "..".toList

theorem clean_names : ∀ (ps : List Str), (∀ p ∈ ps, Name p) → ∀ dir : Storage.Path, Storage.cleanAppend dir (ps.map String.ofList) = dir ++ ps.map String.ofList
  | [], _, dir => by simp [Storage.cleanAppend]
  | p :: ps, h, dir => by
    obtain ⟨-, h1, h2, h3⟩ := h p (by simp)
    have n : ∀ t : Str, p ≠ t → String.ofList p ≠ String.ofList t := fun t hne e => hne (String.ofList_injective e)
    have ih := clean_names ps (fun q hq => h q (List.mem_cons_of_mem _ hq)) (dir ++ [String.ofList p])
    unfold Storage.cleanAppend at ih ⊢
    rw [List.map_cons, List.foldl_cons, if_neg, if_neg, ih, List.append_assoc, List.singleton_append]
    · exact n _ h3
    · rintro (e | e)
      · exact n [] h1 e
      · exact n _ h2 e

/-- **C143**: the folder of a node. A text that begins with a slash names the same folder wherever the program is started; other texts name one below the working directory. -/
theorem c143_folder (sys : Sys) (ps : List Str) (hps : ps ≠ []) (h : ∀ p ∈ ps, Name p) :
    folder sys (ps.flatMap ('/' :: ·)) = some (ps.map String.ofList) ∧
    folder sys (ps.flatMap ('/' :: ·)).tail = some (sys.cwd ++ ps.map String.ofList) := by
  obtain ⟨p, ps, rfl⟩ := List.exists_cons_of_ne_nil hps
  have hs := Props.Multiaddr.splitOn_parts (p :: ps) fun q hq => (h q hq).1
  have h0 := h p (by simp)
  obtain ⟨x, p', hp⟩ := List.exists_cons_of_ne_nil h0.2.1
  have hx : x ≠ '/' := fun e => h0.1 (by rw [hp, e]; simp)
  have ht : Storage.splitOn '/' ((p :: ps).flatMap ('/' :: ·)).tail = p :: ps := by
    rw [List.flatMap_cons, List.cons_append, Storage.splitOn, if_pos rfl] at hs
    rw [List.flatMap_cons, List.cons_append, List.tail_cons]
    exact (List.cons.inj hs).2
  constructor
  · rw [folder, if_neg (by simp)]
    unfold folderOf
    rw [hs, if_pos (by simp), List.map_cons]
    have := clean_names (p :: ps) h []
    unfold Storage.cleanAppend at this ⊢
    rw [List.foldl_cons, if_pos (.inl rfl), this]
    rfl
  · rw [folder, if_neg (by rw [List.flatMap_cons, List.cons_append, List.tail_cons, hp]; simp)]
    unfold folderOf
    rw [ht, if_neg (by rw [List.flatMap_cons, List.cons_append, List.tail_cons, hp]; simpa using hx), clean_names (p :: ps) h]

/-- C143: such names -/
example : (∀ p ∈ ["var".toList, "tss".toList], Name p) ∧ ["var".toList, "tss".toList].flatMap ('/' :: ·) = "/var/tss".toList := by
  refine ⟨?_, by decide +kernel⟩
  intro p hp
  simp only [List.mem_cons, List.not_mem_nil, or_false] at hp
  rcases hp with rfl | rfl <;> exact ⟨by decide +kernel, by decide +kernel, by decide +kernel, by decide +kernel⟩

/-! ## A node -/

/-- the key one -/
def demoKey : Bytes := List.replicate 31 0 ++ [1]

/-- its text -/
def demoText : Str := Base64.encode (List.replicate 63 48 ++ [49])

theorem demo_text : KeyText demoText demoKey :=
  ⟨List.replicate 63 48 ++ [49], 0, by
    have : Spec.Base64.unbroken demoText = demoText := by decide +kernel
    rw [this]
    exact (Props.MessageTexts.c131_write _ _).2 rfl, (Props.Conv.hexDecode_iff _ _).1 (by decide +kernel), by decide⟩

/-- a machine on which the folder does not exist yet, in a network that lets everybody in -/
def demoSys : Sys where
  cwd := ["root"]
  stat _ := .missing
  mkdir _ := true
  disk := []
  password := some demoText
  pad := 0
  generated := some true
  world := ⟨true, true, true, fun _ => ⟨fun _ => true, Shuffle.id _⟩, fun _ => true⟩

/-- a command line -/
def demoArgs : List Str := ["-home".toList, "tss".toList, "-external-ip=10.0.0.7".toList]

/-- its settings -/
def demoConf : Flags.Conf Addr := { Flags.defaults with home := "tss".toList, externalIP := "10.0.0.7".toList }

theorem demo_asks : Asks (fun _ => none) (fun _ => none) (fun _ => none) demoArgs demoConf := by
  rw [← begin_iff, Props.CommandLine.c124_goes_on]
  constructor <;> decide +kernel

theorem demo_own : Own demoConf [.ip4 0 0 0 0, .tcp 6668] (some [.ip4 10 0 0 7, .tcp 6668]) :=
  ⟨6668, rfl, rfl, .inr ⟨10, 0, 0, 7, by decide +kernel, rfl⟩⟩

example : ∃ n, main (fun _ => none) (fun _ => none) (fun _ => none) demoArgs demoSys = .running n demoConf ∧ n.id = hostID demoKey ∧
    n.folder = some ["root", "tss"] ∧ n.external = some [.ip4 10 0 0 7, .tcp 6668] := by
  obtain ⟨k, hk, -⟩ := pubKey_text demoKey (by decide)
  have hkn : known (fun _ => none) demoSys demoConf = [] := by decide +kernel
  refine ⟨_, (c143_runs_partial demoArgs demoSys demoText demoKey rfl demo_text demoConf _ _ demo_own _).2
    ⟨⟨demo_asks, .inr (.inr rfl), rfl, rfl, rfl, .inl hkn⟩, k, hk, rfl⟩, rfl, ?_, rfl⟩
  show folder demoSys demoConf.home = _
  decide +kernel

example : ∃ k, encodeKey (pubKeyOf 1) = some k ∧ Conversion.GetPeerIDFromPubKey RealKeys.codec k = .ok (hostID demoKey) := by
  obtain ⟨k, hk, -⟩ := pubKey_text demoKey (by decide)
  have h1 : Bytes.toNat demoKey = 1 := by decide +kernel
  have := c143_identity demoKey (by decide) (by rw [h1]; exact Nat.one_pos) (by rw [h1]; decide +kernel) k hk
  exact ⟨k, h1 ▸ hk, this.2.2.1⟩

end Verif.Props.Main
