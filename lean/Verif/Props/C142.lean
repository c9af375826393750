import Verif.Spec.Multiaddr
import Verif.Props.C54_C57
import Verif.Props.C64
import Verif.Props.C127
import Verif.Props.C132

set_option linter.unusedSectionVars false

/-!
# C142: the texts of addresses; known peers are found again after a restart
-/
namespace Verif.Props.Multiaddr
open Verif.Multiaddr Verif.Spec.Multiaddr Verif.Spec.PeerId
open Verif.Bech32 (Str)
open Verif.Json (natText decimal utf8 runes)
open Verif.Go

variable {cid : Str → Option Bytes}

/-! ## letters -/

theorem nat_letters (n : Nat) : ∀ c ∈ natText n, c ≠ '/' ∧ c ≠ '.' ∧ c ≠ '\n' := by
  intro c hc
  have h := Props.JsonTexts.nat_digits n c hc
  refine ⟨?_, ?_, ?_⟩ <;> (rintro rfl; revert h; decide)

theorem nat_ne (n : Nat) : natText n ≠ [] := by
  intro h
  have := Nat.length_toDigits_pos (b := 10) (n := n)
  rw [show Nat.toDigits 10 n = natText n from rfl, h] at this
  simp at this

theorem encode_letters (b : Bytes) : ∀ c ∈ Base58.encode b, c ∈ Base58.alphabet := by
  intro c hc
  unfold Base58.encode at hc
  obtain ⟨d, -, rfl⟩ := List.mem_map.1 hc
  rw [List.getD_eq_getElem?_getD]
  rcases h : Base58.alphabet[d]? with _ | x
  · simp only [Option.getD_none]; decide
  · simp only [Option.getD_some]; exact List.mem_of_getElem? h

theorem encode_no (b : Bytes) : '/' ∉ Base58.encode b ∧ '\n' ∉ Base58.encode b :=
  ⟨fun h => absurd (encode_letters b _ h) (by decide), fun h => absurd (encode_letters b _ h) (by decide)⟩

theorem encode_ne {b : Bytes} (h : IsPeerId b) : Base58.encode b ≠ [] := by
  intro e
  have := Props.PeerTexts.c127_read_back (fun _ => none) b h
  rw [e] at this
  simp [Base58.peerDecode] at this

theorem ip_letters (a b c d : Fin 256) : '/' ∉ ipText a b c d ∧ '\n' ∉ ipText a b c d := by
  have h := nat_letters
  unfold ipText
  constructor <;> simp only [List.mem_append, List.mem_cons, not_or] <;>
    refine ⟨⟨⟨fun e => ?_, by decide, fun e => ?_⟩, by decide, fun e => ?_⟩, by decide, fun e => ?_⟩ <;> have := h _ _ e <;> simp_all

/-! ## the parts of a text -/

/-- the texts between the slashes -/
def parts : Comp → List Str
  | .ip4 a b c d => ["ip4".toList, ipText a b c d]
  | .tcp p => ["tcp".toList, natText p]
  | .udp p => ["udp".toList, natText p]
  | .dns k n => [k.name, n]
  | .flag f => [f.name]
  | .p2p id => ["p2p".toList, Base58.encode id]
  | .unix path => ["unix".toList, path]

theorem text_parts (a : Addr) : text a = (a.flatMap parts).flatMap ('/' :: ·) := by
  unfold text
  rw [List.flatMap_assoc]
  congr 1
  funext c
  cases c <;> simp [Comp.text, parts]

theorem parts_good {c : Comp} (h : PlainComp c) : ∀ p ∈ parts c, p ≠ [] ∧ '/' ∉ p := by
  intro p hp
  cases c with
  | ip4 a b c d =>
    simp only [parts, List.mem_cons, List.not_mem_nil, or_false] at hp
    rcases hp with rfl | rfl
    · decide
    · exact ⟨by unfold ipText; simp, (ip_letters a b c d).1⟩
  | tcp n =>
    simp only [parts, List.mem_cons, List.not_mem_nil, or_false] at hp
    rcases hp with rfl | rfl
    · decide
    · exact ⟨nat_ne _, fun e => (nat_letters _ _ e).1 rfl⟩
  | udp n =>
    simp only [parts, List.mem_cons, List.not_mem_nil, or_false] at hp
    rcases hp with rfl | rfl
    · decide
    · exact ⟨nat_ne _, fun e => (nat_letters _ _ e).1 rfl⟩
  | dns k n =>
    simp only [parts, List.mem_cons, List.not_mem_nil, or_false] at hp
    rcases hp with rfl | rfl
    · cases k <;> decide
    · exact h
  | flag f =>
    simp only [parts, List.mem_cons, List.not_mem_nil, or_false] at hp
    subst hp
    cases f <;> decide
  | p2p id =>
    simp only [parts, List.mem_cons, List.not_mem_nil, or_false] at hp
    rcases hp with rfl | rfl
    · decide
    · exact ⟨encode_ne h, (encode_no id).1⟩
  | unix p => exact h.elim

theorem parts_ne (c : Comp) : parts c ≠ [] := by cases c <;> simp [parts]

theorem splitOn_parts (ps : List Str) (h : ∀ p ∈ ps, '/' ∉ p) : Storage.splitOn '/' (ps.flatMap ('/' :: ·)) = [] :: ps := by
  induction ps with
  | nil => rfl
  | cons p ps ih =>
    have h1 := h p (by simp)
    have h2 := ih fun p hp => h p (by simp [hp])
    rw [List.flatMap_cons, List.cons_append, Storage.splitOn, if_pos rfl]
    congr 1
    cases ps with
    | nil => simpa using Props.Storage.splitOn_none h1
    | cons q ps =>
      rw [List.flatMap_cons, List.cons_append] at h2 ⊢
      rw [Storage.splitOn, if_pos rfl] at h2
      rw [Props.Storage.splitOn_line _ _ h1]
      congr 1
      exact (List.cons.inj h2).2

theorem trim_end (s : Str) (c : Char) (h : c ≠ '/') : trimRight (s ++ [c]) = s ++ [c] := by
  simp [trimRight, h]

theorem trim_parts (ps : List Str) (hne : ps ≠ []) (h : ∀ p ∈ ps, p ≠ [] ∧ '/' ∉ p) : trimRight (ps.flatMap ('/' :: ·)) = ps.flatMap ('/' :: ·) := by
  obtain ⟨l, p, rfl⟩ : ∃ l p, ps = l ++ [p] := ⟨_, _, (List.dropLast_append_getLast hne).symm⟩
  obtain ⟨h1, h2⟩ := h p (by simp)
  obtain ⟨q, c, rfl⟩ : ∃ q c, p = q ++ [c] := ⟨_, _, (List.dropLast_append_getLast h1).symm⟩
  have hc : c ≠ '/' := by rintro rfl; simp at h2
  rw [List.flatMap_append, List.flatMap_singleton, ← List.cons_append, ← List.append_assoc]
  exact trim_end _ c hc

theorem read_parts (ps : List Str) (hne : ps ≠ []) (h : ∀ p ∈ ps, p ≠ [] ∧ '/' ∉ p) :
    newMultiaddr cid (ps.flatMap ('/' :: ·)) = readParts cid ps := by
  unfold newMultiaddr
  rw [trim_parts ps hne h, splitOn_parts ps fun p hp => (h p hp).2]
  cases ps with
  | nil => exact absurd rfl hne
  | cons p ps => rfl

/-! ## reading a component -/

theorem read_nat {n : Nat} (i : Fin n) : readNat n (natText i) = some i := by
  have := Props.JsonTexts.decimal_nat i.1
  unfold readNat
  rw [dif_pos (by rw [this]; exact i.2), if_pos (by rw [this])]
  simp [this]

theorem nat_head (n : Nat) : ¬ ((natText n).head? = some '-' ∨ (natText n).head? = some '+') := by
  intro h
  rcases h with h | h <;> have := Props.JsonTexts.nat_digits n _ (List.mem_of_mem_head? h) <;> revert this <;> decide

theorem atoi_nat {n : Nat} (h : n < 2 ^ 63) : atoi (natText n) = some (n : Int) := by
  have h1 := nat_head n
  have h2 : ¬ (natText n).head? = some '-' := fun h => h1 (.inl h)
  have h3 : ¬ (natText n = [] ∨ (natText n).all Char.isDigit = false) := by
    rintro (h | h)
    · exact nat_ne n h
    · rw [List.all_eq_true.2 (Props.JsonTexts.nat_digits n)] at h; cases h
  have h4 : -2 ^ 63 ≤ (n : Int) ∧ (n : Int) < 2 ^ 63 := by omega
  simp only [atoi, if_neg h1, if_neg h2, if_neg h3, Props.JsonTexts.decimal_nat, if_pos h4]

theorem read_port (i : Fin 65536) : readPort (natText i) = some i := by
  have h := i.2
  unfold readPort
  rw [atoi_nat (by omega)]
  simp only [ge_iff_le]
  rw [if_neg (by omega)]
  congr 1
  apply Fin.ext
  simp only [Fin.ofNat]
  omega

theorem read_ip (a b c d : Fin 256) : readIp (ipText a b c d) = some (.ip4 a b c d) := by
  have hn : ∀ n : Nat, '.' ∉ natText n := fun n e => (nat_letters n _ e).2.1 rfl
  have : Storage.splitOn '.' (ipText a b c d) = [natText a, natText b, natText c, natText d] := by
    unfold ipText
    rw [List.append_assoc, List.cons_append, List.append_assoc, List.cons_append, Props.Storage.splitOn_line _ _ (hn _), Props.Storage.splitOn_line _ _ (hn _), Props.Storage.splitOn_line _ _ (hn _), Props.Storage.splitOn_none (hn _)]
  unfold readIp
  rw [this]
  simp only [read_nat]

theorem flagOf_name (f : Flag) : flagOf f.name = some f := by cases f <;> decide

theorem dnsOf_name (k : Dns) : flagOf k.name = none ∧ k.name ≠ "unix".toList ∧ k.name ≠ "ip4".toList ∧ k.name ≠ "tcp".toList ∧ k.name ≠ "udp".toList ∧
    ¬ (k.name = "p2p".toList ∨ k.name = "ipfs".toList) ∧ dnsOf k.name = some k := by cases k <;> decide

theorem flag_none : flagOf "ip4".toList = none ∧ flagOf "tcp".toList = none ∧ flagOf "udp".toList = none ∧ flagOf "p2p".toList = none ∧ flagOf "unix".toList = none := by decide

theorem read_comp {c : Comp} (h : PlainComp c) (rest : List Str) : readParts cid (parts c ++ rest) = (readParts cid rest).map (c :: ·) := by
  obtain ⟨f1, f2, f3, f4, -⟩ := flag_none
  cases c with
  | ip4 a b c d =>
    show readParts cid (_ :: _ :: rest) = _
    rw [readParts, f1]
    simp only [readValue, read_ip]
    simp
  | tcp n =>
    show readParts cid (_ :: _ :: rest) = _
    rw [readParts, f2]
    simp [readValue, read_port]
  | udp n =>
    show readParts cid (_ :: _ :: rest) = _
    rw [readParts, f3]
    simp [readValue, read_port]
  | dns k n =>
    obtain ⟨d1, d2, d3, d4, d5, d6, d7⟩ := dnsOf_name k
    show readParts cid (_ :: _ :: rest) = _
    rw [readParts, d1]
    simp only [readValue, if_neg d2, if_neg d3, if_neg d4, if_neg d5, if_neg d6, d7]
  | flag f =>
    cases rest with
    | nil => simp [parts, readParts, flagOf_name]
    | cons v rest =>
      show readParts cid (_ :: _ :: rest) = _
      rw [readParts, flagOf_name]
  | p2p id =>
    show readParts cid (_ :: _ :: rest) = _
    rw [readParts, f4]
    simp [readValue, Props.PeerTexts.c127_read_back cid id h]
  | unix p => exact h.elim

theorem read_comps {a : Addr} (h : Plain a) (rest : List Str) : readParts cid (a.flatMap parts ++ rest) = (readParts cid rest).map (a ++ ·) := by
  induction a with
  | nil => simp
  | cons c a ih =>
    rw [List.flatMap_cons, List.append_assoc, read_comp (h c (by simp)), ih fun c hc => h c (by simp [hc])]
    cases readParts cid rest <;> rfl

/-- C142: the text of a network address is read as this address. -/
theorem c142_text (a : Addr) (hne : a ≠ []) (h : Plain a) : newMultiaddr cid (text a) = some a := by
  rw [text_parts, read_parts]
  · have := read_comps (cid := cid) h []
    rw [List.append_nil] at this
    rw [this]
    simp [readParts]
  · intro e
    obtain ⟨c, l, rfl⟩ := List.exists_cons_of_ne_nil hne
    rw [List.flatMap_cons] at e
    exact parts_ne c (List.append_eq_nil_iff.1 e).1
  · intro p hp
    obtain ⟨c, hc, hp⟩ := List.mem_flatMap.1 hp
    exact parts_good (h c hc) p hp

/-! ## peers and their addresses -/

theorem peer_ne {q : Bytes} (h : IsPeerId q) : q ≠ [] := (Props.PeerTexts.peerId_ne h).1

/-- C142: from an address with a peer id at its end the program gets this peer and this address. -/
theorem c142_info (a : Addr) (q : Bytes) (h : IsPeerId q) : addrInfo (a ++ [.p2p q]) = some (q, a) := by
  simp [addrInfo, peer_ne h]

theorem plain_peer {a : Addr} (h : Plain a) {q : Bytes} (hq : IsPeerId q) : Plain (a ++ [.p2p q]) := by
  intro c hc
  rcases List.mem_append.1 hc with hc | hc
  · exact h c hc
  · rw [List.mem_singleton.1 hc]; exact hq

theorem text_peer (a : Addr) (q : Bytes) : text a ++ "/p2p/".toList ++ Base58.encode q = text (a ++ [.p2p q]) := by
  simp [text, Comp.text]

theorem one_line {a : Addr} (h : OneLine a) : '\n' ∉ text a := by
  intro e
  obtain ⟨c, hc, e⟩ := List.mem_flatMap.1 e
  have hl := h c hc
  cases c with
  | ip4 a b c d =>
    rcases List.mem_append.1 e with e | e
    · revert e; decide
    · exact (ip_letters a b c d).2 e
  | tcp p =>
    rcases List.mem_append.1 e with e | e
    · revert e; decide
    · exact (nat_letters _ _ e).2.2 rfl
  | udp p =>
    rcases List.mem_append.1 e with e | e
    · revert e; decide
    · exact (nat_letters _ _ e).2.2 rfl
  | dns k n =>
    rcases List.mem_append.1 e with e | e
    · revert e; cases k <;> decide
    · rcases List.mem_cons.1 e with e | e
      · revert e; decide
      · exact hl e
  | flag f => revert e; cases f <;> decide
  | p2p id =>
    rcases List.mem_append.1 e with e | e
    · revert e; decide
    · exact (encode_no id).2 e
  | unix p =>
    rcases List.mem_append.1 e with e | e
    · revert e; decide
    · exact hl e

/-! ## the address book -/

/-- Specification: a book of network addresses without line breaks, under peer ids -/
def GoodBook (book : Map Bytes (List Addr)) : Prop := ∀ q addrs, (q, addrs) ∈ book → IsPeerId q ∧ ∀ a ∈ addrs, Plain a ∧ OneLine a

theorem mem_entries {A Q : Type} {aenv : Storage.AddrEnv A Q} {book : Map Q (List A)} {e : A × Q} :
    e ∈ Props.Storage.entries aenv book ↔ ∃ addrs, (e.2, addrs) ∈ book ∧ e.1 ∈ addrs ∧ ¬ "127.0.0.1".toList <:+: aenv.addrStr e.1 := by
  unfold Props.Storage.entries
  simp only [List.mem_flatMap, List.mem_map, List.mem_filter, decide_eq_true_eq]
  constructor
  · rintro ⟨⟨q, addrs⟩, h1, a, ⟨h2, h3⟩, rfl⟩
    exact ⟨addrs, h1, h2, h3⟩
  · rintro ⟨addrs, h1, h2, h3⟩
    exact ⟨(e.2, addrs), h1, e.1, ⟨h2, h3⟩, rfl⟩

theorem good_lines {book : Map Bytes (List Addr)} (g : GoodBook book) : ∀ e ∈ Props.Storage.entries (env cid) book,
    '\n' ∉ (env cid).addrStr e.1 ∧ '\n' ∉ (env cid).peerStr e.2 ∧
      (env cid).parse ((env cid).addrStr e.1 ++ "/p2p/".toList ++ (env cid).peerStr e.2) = some (e.1 ++ [.p2p e.2]) := by
  intro e he
  obtain ⟨addrs, h1, h2, -⟩ := mem_entries.1 he
  obtain ⟨hq, ha⟩ := g _ _ h1
  obtain ⟨hp, hl⟩ := ha _ h2
  refine ⟨one_line hl, (encode_no _).2, ?_⟩
  show newMultiaddr cid (text e.1 ++ "/p2p/".toList ++ Base58.encode e.2) = _
  rw [text_peer]
  exact c142_text _ (by simp) (plain_peer hp hq)

theorem env_text (t : Str) : (env cid).text ((env cid).bytes t) = t := Props.JsonTexts.c132_written t

/-- C142: after the book was saved, in any order of its peers, the program reads from the file exactly the saved pairs of a peer and one of its addresses: no
address gets lost (except those whose text contains "127.0.0.1"), none comes under another peer. Missing in comparison with the property: addresses with a path and host names with a
line break, see `c142_path_blocks` and `c142_line_break`. -/
theorem c142_contacts_partial (dir : Storage.Path) (σ : Shuffle (Bytes × List Addr)) (book : Map Bytes (List Addr)) (g : GoodBook book) (f : Option Storage.Fault)
    (d : Storage.Disk) (hok : (Storage.SaveAddressBook (env cid) (some dir) σ book f d).2 = .ok ()) :
    ∃ l, Storage.RetrieveP2PAddresses (env cid) (some dir) (Storage.SaveAddressBook (env cid) (some dir) σ book f d).1 = .ok l ∧
      (l.map addrInfo).Perm ((Props.Storage.entries (env cid) book).map fun e => some (e.2, e.1)) := by
  obtain ⟨l, h1, h2⟩ := Props.Storage.round_trip_on (env cid) (fun a q => a ++ [.p2p q]) dir σ book f d hok env_text (good_lines g)
  refine ⟨l, h1, (h2.map addrInfo).trans (List.Perm.of_eq ?_)⟩
  rw [List.map_map]
  refine List.map_congr_left fun e he => ?_
  obtain ⟨addrs, hb, -⟩ := mem_entries.1 he
  exact c142_info _ _ (g _ _ hb).1

/-- Specification: the peers which a node tries to reach at its start: those of the command line, and those of the saved book at their addresses -/
def Contact (book : Map Bytes (List Addr)) (s : Startup.Settings Addr) (p : Addr) : Prop :=
  (∃ q addrs a, (q, addrs) ∈ book ∧ a ∈ addrs ∧ ¬ "127.0.0.1".toList <:+: text a ∧ p = a ++ [.p2p q]) ∨ p ∈ s.cmdPeers

/-- C142: a node with usable settings, a saved book and peers with peer ids on the command line starts again exactly when there is nobody to reach, or one of the
known peers is reached at one of its addresses in one of five attempts and one answers the ping. The same is missing as in `c142_contacts_partial`. -/
theorem c142_start_partial (s : Startup.Settings Addr) (dir : Storage.Path) (hdir : s.folder = some dir) (hcmd : ∀ p ∈ s.cmdPeers, hasID p = true)
    (σ : Shuffle (Bytes × List Addr)) (book : Map Bytes (List Addr)) (g : GoodBook book) (f : Option Storage.Fault) (d : Storage.Disk)
    (hok : (Storage.SaveAddressBook (env cid) (some dir) σ book f d).2 = .ok ()) (generated : Option Bool) (w : Startup.World Addr) :
    (∃ n, Startup.NewTss (env cid) hasID s generated w (Storage.SaveAddressBook (env cid) (some dir) σ book f d).1 = .ok n) ↔
      Props.Startup.Usable s generated w ∧ ((∀ p, ¬ Contact book s p) ∨
        (∃ i : Fin 5, ∃ p, Contact book s p ∧ (w.attempts i).reached p = true) ∧ ∃ p, Contact book s p ∧ w.pong p = true) := by
  have hm : ∀ p, p ∈ Startup.bootstrapPeers (env cid) s (Storage.SaveAddressBook (env cid) (some dir) σ book f d).1 ↔ Contact book s p :=
    fun p => Props.Startup.saved_peers_on (env cid) (fun (a : Addr) (q : Bytes) => a ++ [Comp.p2p q]) s dir hdir σ book f d hok env_text (good_lines g) p
  have hid : ∀ p, Contact book s p → hasID p = true := by
    rintro p (⟨q, addrs, a, hb, -, -, rfl⟩ | h)
    · unfold hasID; rw [c142_info a q (g _ _ hb).1]; rfl
    · exact hcmd p h
  rw [Props.Startup.c84_starts_iff]
  refine and_congr_right fun _ => or_congr ?_ ?_
  · rw [List.eq_nil_iff_forall_not_mem]
    exact forall_congr' fun p => not_congr (hm p)
  · simp only [hm]
    exact and_iff_right hid

/-! ## addresses which keep a node from starting -/

theorem joinSlash_splitOn (s : Str) : joinSlash (Storage.splitOn '/' s) = s := by
  induction s with
  | nil => rfl
  | cons x s ih =>
    rw [Storage.splitOn]
    have hne : Storage.splitOn '/' s ≠ [] := by
      cases s with
      | nil => simp [Storage.splitOn]
      | cons y s =>
        rw [Storage.splitOn]
        split
        · simp
        · split <;> simp
    obtain ⟨l, ls, e⟩ := List.exists_cons_of_ne_nil hne
    rw [e] at ih ⊢
    split
    · rename_i h
      rw [joinSlash, ih, h]; rfl
    · cases ls with
      | nil => simp only [joinSlash] at ih ⊢; rw [ih]
      | cons m ls => simp only [joinSlash] at ih ⊢; rw [List.cons_append, ih]

theorem splitOn_ne (c : Char) (s : Str) : Storage.splitOn c s ≠ [] := by
  cases s with
  | nil => simp [Storage.splitOn]
  | cons y s =>
    rw [Storage.splitOn]
    split
    · simp
    · split <;> simp

theorem splitOn_parts_more (ps : List Str) (h : ∀ p ∈ ps, '/' ∉ p) (s : Str) :
    Storage.splitOn '/' (ps.flatMap ('/' :: ·) ++ '/' :: s) = [] :: (ps ++ Storage.splitOn '/' s) := by
  induction ps with
  | nil => rw [List.flatMap_nil, List.nil_append, Storage.splitOn, if_pos rfl]; rfl
  | cons p ps ih =>
    have h1 := h p (by simp)
    have h2 := ih fun p hp => h p (by simp [hp])
    rw [List.flatMap_cons, List.cons_append, List.cons_append, Storage.splitOn, if_pos rfl]
    congr 1
    have : ∃ r, ps.flatMap ('/' :: ·) ++ '/' :: s = '/' :: r := by
      cases ps with
      | nil => exact ⟨s, rfl⟩
      | cons q ps => exact ⟨_, rfl⟩
    obtain ⟨r, e⟩ := this
    rw [List.append_assoc, e, Props.Storage.splitOn_line _ _ h1, List.cons_append]
    congr 1
    rw [e, Storage.splitOn, if_pos rfl] at h2
    exact (List.cons.inj h2).2

/-- reading a path takes the rest of the text -/
theorem read_unix {a : Addr} (h : Plain a) (path : Str) {q : Bytes} (hq : IsPeerId q) :
    newMultiaddr cid (text (a ++ [.unix path]) ++ "/p2p/".toList ++ Base58.encode q) =
      some (a ++ [.unix (path ++ "/p2p/".toList ++ Base58.encode q)]) := by
  have e : text (a ++ [.unix path]) ++ "/p2p/".toList ++ Base58.encode q =
      ((a.flatMap parts) ++ ["unix".toList]).flatMap ('/' :: ·) ++ '/' :: (path ++ "/p2p/".toList ++ Base58.encode q) := by
    have : text (a ++ [.unix path]) = text a ++ ("/unix/".toList ++ path) := by simp [text, Comp.text]
    rw [this, text_parts, List.flatMap_append]
    simp
  have ht : trimRight (text (a ++ [.unix path]) ++ "/p2p/".toList ++ Base58.encode q) = text (a ++ [.unix path]) ++ "/p2p/".toList ++ Base58.encode q := by
    obtain ⟨l, c, hc⟩ : ∃ l c, Base58.encode q = l ++ [c] := ⟨_, _, (List.dropLast_append_getLast (encode_ne hq)).symm⟩
    have hn : c ≠ '/' := by
      rintro rfl
      exact (encode_no q).1 (by rw [hc]; simp)
    rw [hc, ← List.append_assoc]
    exact trim_end _ c hn
  unfold newMultiaddr
  rw [ht, e, splitOn_parts_more]
  · obtain ⟨v, rest, hv⟩ := List.exists_cons_of_ne_nil (splitOn_ne '/' (path ++ "/p2p/".toList ++ Base58.encode q))
    have hj := joinSlash_splitOn (path ++ "/p2p/".toList ++ Base58.encode q)
    rw [hv] at hj ⊢
    have hr := read_comps (cid := cid) h ("unix".toList :: v :: rest)
    rw [readParts, flag_none.2.2.2.2] at hr
    simp only [if_pos, Option.map_some, hj] at hr
    rw [← hr, List.append_assoc]
    obtain ⟨p, ps, e2⟩ := List.exists_cons_of_ne_nil (l := a.flatMap parts ++ ([("unix".toList : Str)] ++ v :: rest)) (by simp)
    rw [e2]
    show readParts cid (p :: ps) = _
    rw [← e2]
    rfl
  · intro p hp
    rcases List.mem_append.1 hp with hp | hp
    · obtain ⟨c, hc, hp⟩ := List.mem_flatMap.1 hp
      exact (parts_good (h c hc) p hp).2
    · rw [List.mem_singleton.1 hp]; decide

/-- Specification: a network address, or one which goes on with a path (of a socket) -/
def WithPath (a : Addr) : Prop := Plain a ∨ ∃ b path, a = b ++ [.unix path] ∧ Plain b

/-- what an address and a peer become in the file -/
def encap (a : Addr) (q : Bytes) : Addr :=
  match a.getLast? with
  | some (.unix path) => a.dropLast ++ [.unix (path ++ "/p2p/".toList ++ Base58.encode q)]
  | _ => a ++ [.p2p q]

theorem encap_plain {a : Addr} (h : Plain a) (q : Bytes) : encap a q = a ++ [.p2p q] := by
  unfold encap
  split
  · rename_i path e
    exact (h _ (List.mem_of_getLast? e)).elim
  · rfl

/-- C142 is false for addresses with a path: the text of the peer becomes part of the path. If such an address (which another peer may announce as its own) was saved,
then no start of the node succeeds any more, whichever peers it can reach. -/
theorem c142_path_blocks (s : Startup.Settings Addr) (dir : Storage.Path) (hdir : s.folder = some dir) (σ : Shuffle (Bytes × List Addr))
    (book : Map Bytes (List Addr)) (g : ∀ q addrs, (q, addrs) ∈ book → IsPeerId q ∧ ∀ a ∈ addrs, WithPath a ∧ OneLine a)
    (f : Option Storage.Fault) (d : Storage.Disk) (hok : (Storage.SaveAddressBook (env cid) (some dir) σ book f d).2 = .ok ())
    (q : Bytes) (addrs : List Addr) (b : Addr) (path : Str) (hb : (q, addrs) ∈ book) (ha : b ++ [.unix path] ∈ addrs)
    (hl : ¬ "127.0.0.1".toList <:+: text (b ++ [.unix path])) (generated : Option Bool) (w : Startup.World Addr) (n : Startup.Node Addr) :
    Startup.NewTss (env cid) hasID s generated w (Storage.SaveAddressBook (env cid) (some dir) σ book f d).1 ≠ .ok n := by
  have hlines : ∀ e ∈ Props.Storage.entries (env cid) book, '\n' ∉ (env cid).addrStr e.1 ∧ '\n' ∉ (env cid).peerStr e.2 ∧
      (env cid).parse ((env cid).addrStr e.1 ++ "/p2p/".toList ++ (env cid).peerStr e.2) = some (encap e.1 e.2) := by
    intro e he
    obtain ⟨addrs, h1, h2, -⟩ := mem_entries.1 he
    obtain ⟨hq, ha⟩ := g _ _ h1
    obtain ⟨hp, hl⟩ := ha _ h2
    refine ⟨one_line hl, (encode_no _).2, ?_⟩
    show newMultiaddr cid (text e.1 ++ "/p2p/".toList ++ Base58.encode e.2) = _
    rcases hp with hp | ⟨b, path, hb, hp⟩
    · rw [text_peer, encap_plain hp]
      exact c142_text _ (by simp) (plain_peer hp hq)
    · rw [hb, read_unix hp path hq]
      simp [encap]
  have hm := Props.Startup.saved_peers_on (env cid) encap s dir hdir σ book f d hok env_text hlines (encap (b ++ [.unix path]) q)
  have hm := hm.2 (.inl ⟨q, addrs, _, hb, ha, hl, rfl⟩)
  intro h
  obtain ⟨-, h⟩ := (Props.Startup.c84_starts_iff (env cid) hasID s generated w _).1 ⟨n, h⟩
  rcases h with h | ⟨h, -⟩
  · rw [h] at hm; cases hm
  · have := h _ hm
    simp [hasID, addrInfo, encap] at this

/-- C142 is false for host names with a line break: the record becomes two lines, the first of which has no peer id. If such an address was saved, then no start of
the node succeeds any more. -/
theorem c142_line_break (s : Startup.Settings Addr) (dir : Storage.Path) (hdir : s.folder = some dir) (σ : Shuffle (Bytes × List Addr))
    (q : Bytes) (hq : IsPeerId q) (k : Dns) (name : Str) (hn : name ≠ [] ∧ '/' ∉ name ∧ '\n' ∉ name) (rest : Addr) (hr : Plain rest) (hro : OneLine rest)
    (hl : ¬ "127.0.0.1".toList <:+: text (.dns k (name ++ ['\n']) :: rest)) (d : Storage.Disk) (generated : Option Bool) (w : Startup.World Addr)
    (n : Startup.Node Addr) :
    let saved := Storage.SaveAddressBook (env cid) (some dir) σ [(q, [.dns k (name ++ ['\n']) :: rest])] none d
    saved.2 = .ok () ∧ Startup.NewTss (env cid) hasID s generated w saved.1 ≠ .ok n := by
  intro saved
  have hσ : σ.f [(q, [.dns k (name ++ ['\n']) :: rest])] = [(q, [.dns k (name ++ ['\n']) :: rest])] := List.perm_singleton.1 (σ.perm _)
  have hrec : Storage.records (env cid) [(q, [.dns k (name ++ ['\n']) :: rest])] =
      ([text [.dns k name], text (rest ++ [.p2p q])] : List Str).flatMap fun l => l ++ ['\n'] := by
    have : Storage.isLoopback (text (.dns k (name ++ ['\n']) :: rest)) = false := by
      rw [← Bool.not_eq_true, Props.Storage.isLoopback_iff]; exact hl
    simp [Storage.records, env, this]
    simp [text, Comp.text]
  have hs : saved = (Map.set d (Storage.join dir "address_book.seed") (utf8 (Storage.records (env cid) [(q, [.dns k (name ++ ['\n']) :: rest])])), .ok ()) := by
    show Storage.SaveAddressBook _ _ _ _ _ _ = _
    simp only [Storage.SaveAddressBook, hσ, Storage.writeFile]
    rfl
  refine ⟨by rw [hs], fun h => ?_⟩
  have hp1 : Plain [.dns k name] := by
    intro c hc; rw [List.mem_singleton.1 hc]; exact ⟨hn.1, hn.2.1⟩
  have hp2 := plain_peer hr hq
  have hret : Storage.RetrieveP2PAddresses (env cid) s.folder saved.1 = .ok [[.dns k name], rest ++ [.p2p q]] := by
    rw [hdir, hs]
    simp only [Storage.RetrieveP2PAddresses, Map.get_set_self]
    rw [show (env cid).text (utf8 _) = _ from env_text _, hrec, Props.Storage.splitOn_lines]
    · have e1 : newMultiaddr cid (text [.dns k name]) = _ := c142_text _ (by simp) hp1
      have e2 : newMultiaddr cid (text (rest ++ [.p2p q])) = _ := c142_text _ (by simp) hp2
      have n1 : (text [Comp.dns k name]).length ≠ 0 := by simp [text, Comp.text]
      have n2 : (text (rest ++ [Comp.p2p q])).length ≠ 0 := by simp [text, Comp.text]
      show Storage.parseLines (env cid) (_ :: _ :: [[]]) = _
      simp only [Storage.parseLines]
      rw [if_neg n1, if_neg n2]
      simp only [env, e1, e2, List.length_nil]
      rfl
    · intro l hl
      simp only [List.mem_cons, List.not_mem_nil, or_false] at hl
      rcases hl with rfl | rfl
      · exact one_line fun c hc => by rw [List.mem_singleton.1 hc]; exact hn.2.2
      · refine one_line fun c hc => ?_
        rcases List.mem_append.1 hc with hc | hc
        · exact hro c hc
        · rw [List.mem_singleton.1 hc]; trivial
  obtain ⟨-, h⟩ := (Props.Startup.c84_starts_iff (env cid) hasID s generated w _).1 ⟨n, h⟩
  have hm : [Comp.dns k name] ∈ Startup.bootstrapPeers (env cid) s saved.1 := by
    unfold Startup.bootstrapPeers
    rw [hret]
    simp
  rcases h with h | ⟨h, -⟩
  · rw [h] at hm; cases hm
  · have := h _ hm
    simp [hasID, addrInfo] at this

/-! ## which addresses are left out -/

theorem infix_split {w x y : Str} {c : Char} (hw : c ∉ w) (h : w <:+: x ++ c :: y) : w <:+: x ∨ w <:+: y := by
  obtain ⟨u, v, e⟩ := h
  rcases List.append_eq_append_iff.1 e with ⟨z, h1, h2⟩ | ⟨z, h1, h2⟩
  · exact .inl ⟨u, z, h1.symm⟩
  · cases z with
    | nil => exact .inl ⟨u, [], by rw [h1, List.append_nil, List.append_nil]⟩
    | cons z0 z =>
      rw [List.cons_append] at h2
      obtain ⟨rfl, rfl⟩ := List.cons.inj h2
      rcases List.append_eq_append_iff.1 h1 with ⟨t, h3, h4⟩ | ⟨t, h3, h4⟩
      · exact absurd (by rw [h4]; simp) hw
      · cases t with
        | nil => exact absurd (show c ∈ w by rw [List.nil_append] at h4; rw [← h4]; simp) hw
        | cons t0 t =>
          rw [List.cons_append] at h4
          obtain ⟨-, rfl⟩ := List.cons.inj h4
          exact .inr ⟨t, v, by simp⟩

theorem infix_parts {w : Str} (hw : '/' ∉ w) (hne : w ≠ []) : ∀ ps : List Str, w <:+: ps.flatMap ('/' :: ·) → ∃ p ∈ ps, w <:+: p
  | [], h => by
    rw [List.flatMap_nil, List.infix_nil] at h
    exact absurd h hne
  | p :: ps, h => by
    rw [List.flatMap_cons, List.cons_append] at h
    rcases infix_split (x := []) hw h with h | h
    · exact absurd (List.infix_nil.1 h) hne
    · cases ps with
      | nil =>
        rw [List.flatMap_nil, List.append_nil] at h
        exact ⟨p, by simp, h⟩
      | cons q ps =>
        rw [List.flatMap_cons, List.cons_append] at h
        rcases infix_split hw h with h | h
        · exact ⟨p, by simp, h⟩
        · obtain ⟨p', h1, h2⟩ := infix_parts hw hne (q :: ps) (by
            rw [List.flatMap_cons, List.cons_append]
            exact h.trans (List.infix_cons (List.infix_refl _)))
          exact ⟨p', by simp at h1 ⊢; exact .inr h1, h2⟩

theorem octet_127 : ∀ a : Fin 256, ("127".toList.isSuffixOf (natText a)) = true → a = 127 := by decide +kernel

theorem octet_0 : ∀ a : Fin 256, natText a = "0".toList → a = 0 := by decide +kernel

theorem octet_1 : ∀ d : Fin 256, ("1".toList.isPrefixOf (natText d)) = true ↔ (d = 1 ∨ (10 ≤ d ∧ d < 20) ∨ (100 ≤ d ∧ d < 200)) := by decide +kernel

theorem count_nat (n : Nat) : (natText n).count '.' = 0 := List.count_eq_zero.2 fun e => (nat_letters n _ e).2.1 rfl

theorem split_ip (a b c d : Fin 256) : Storage.splitOn '.' (ipText a b c d) = [natText a, natText b, natText c, natText d] := by
  have hn : ∀ n : Nat, '.' ∉ natText n := fun n e => (nat_letters n _ e).2.1 rfl
  unfold ipText
  rw [List.append_assoc, List.cons_append, List.append_assoc, List.cons_append, Props.Storage.splitOn_line _ _ (hn _), Props.Storage.splitOn_line _ _ (hn _), Props.Storage.splitOn_line _ _ (hn _), Props.Storage.splitOn_none (hn _)]

/-- the text of an IPv4 address contains "127.0.0.1" -/
theorem ip_infix (a b c d : Fin 256) : "127.0.0.1".toList <:+: ipText a b c d ↔
    a = 127 ∧ b = 0 ∧ c = 0 ∧ (d = 1 ∨ (10 ≤ d ∧ d < 20) ∨ (100 ≤ d ∧ d < 200)) := by
  constructor
  · rintro ⟨u, v, e⟩
    have hc : (u ++ "127.0.0.1".toList ++ v).count '.' = 3 := by
      rw [e]
      unfold ipText
      simp [List.count_append, count_nat]
    have h3 : ("127.0.0.1".toList : Str).count '.' = 3 := by decide
    rw [List.count_append, List.count_append, h3] at hc
    have hu : '.' ∉ u := List.count_eq_zero.1 (by omega)
    have hv : '.' ∉ v := List.count_eq_zero.1 (by omega)
    have hs : Storage.splitOn '.' (u ++ "127.0.0.1".toList ++ v) = [u ++ "127".toList, "0".toList, "0".toList, '1' :: v] := by
      have e2 : u ++ "127.0.0.1".toList ++ v = (u ++ "127".toList) ++ '.' :: ("0".toList ++ '.' :: ("0".toList ++ '.' :: ('1' :: v))) := by simp
      rw [e2, Props.Storage.splitOn_line _ _ (by simp [hu]), Props.Storage.splitOn_line _ _ (by decide), Props.Storage.splitOn_line _ _ (by decide),
        Props.Storage.splitOn_none (by simp [hv])]
    rw [e, split_ip] at hs
    simp only [List.cons.injEq, and_true] at hs
    obtain ⟨h1, h2, h3, h4⟩ := hs
    refine ⟨octet_127 a ?_, octet_0 b h2, octet_0 c h3, (octet_1 d).1 ?_⟩
    · rw [h1]; exact List.isSuffixOf_iff_suffix.2 ⟨u, rfl⟩
    · rw [h4]; exact List.isPrefixOf_iff_prefix.2 ⟨v, rfl⟩
  · rintro ⟨rfl, rfl, rfl, hd⟩
    obtain ⟨v, hv⟩ := List.isPrefixOf_iff_prefix.1 ((octet_1 d).2 hd)
    refine ⟨[], v, ?_⟩
    unfold ipText
    have e1 : natText (127 : Fin 256).1 = "127".toList := by decide +kernel
    have e0 : natText (0 : Fin 256).1 = "0".toList := by decide +kernel
    rw [← hv, e1, e0]
    simp

/-- C142: of the network addresses without host names, those and only those are left out of the book which contain one of the loopback addresses 127.0.0.1,
127.0.0.10 to 127.0.0.19 and 127.0.0.100 to 127.0.0.199. So no such address of another machine is left out. -/
theorem c142_left_out (a : Addr) (h : Plain a) (hd : ∀ k n, Comp.dns k n ∉ a) : "127.0.0.1".toList <:+: text a ↔
    ∃ d : Fin 256, Comp.ip4 127 0 0 d ∈ a ∧ (d = 1 ∨ (10 ≤ d ∧ d < 20) ∨ (100 ≤ d ∧ d < 200)) := by
  constructor
  · intro hi
    rw [text_parts] at hi
    obtain ⟨p, hp, hi⟩ := infix_parts (by decide) (by decide) _ hi
    obtain ⟨c, hc, hp⟩ := List.mem_flatMap.1 hp
    have hdot : '.' ∈ p := hi.subset (by decide)
    cases c with
    | ip4 x y z d =>
      simp only [parts, List.mem_cons, List.not_mem_nil, or_false] at hp
      rcases hp with rfl | rfl
      · exact absurd hdot (by decide)
      · obtain ⟨rfl, rfl, rfl, hd⟩ := (ip_infix x y z d).1 hi
        exact ⟨d, hc, hd⟩
    | tcp n =>
      simp only [parts, List.mem_cons, List.not_mem_nil, or_false] at hp
      rcases hp with rfl | rfl
      · exact absurd hdot (by decide)
      · exact absurd rfl (nat_letters _ _ hdot).2.1
    | udp n =>
      simp only [parts, List.mem_cons, List.not_mem_nil, or_false] at hp
      rcases hp with rfl | rfl
      · exact absurd hdot (by decide)
      · exact absurd rfl (nat_letters _ _ hdot).2.1
    | dns k n => exact absurd hc (hd k n)
    | flag f =>
      simp only [parts, List.mem_cons, List.not_mem_nil, or_false] at hp
      subst hp
      exact absurd hdot (by cases f <;> decide)
    | p2p id =>
      simp only [parts, List.mem_cons, List.not_mem_nil, or_false] at hp
      rcases hp with rfl | rfl
      · exact absurd hdot (by decide)
      · exact absurd (encode_letters id _ hdot) (by decide)
    | unix p => exact (h _ hc).elim
  · rintro ⟨d, hc, hd⟩
    have h1 := (ip_infix 127 0 0 d).2 ⟨rfl, rfl, rfl, hd⟩
    obtain ⟨l, r, rfl⟩ := List.append_of_mem hc
    refine h1.trans ⟨text l ++ "/ip4/".toList, text r, ?_⟩
    simp [text, Comp.text]

/-! ## the own addresses -/

theorem int_text (p : Nat) : Json.intText (p : Int) = natText p := rfl

/-- C142: a node listens at the port it is told, on all interfaces; with an external IPv4 address it announces this address with its port and nothing else. -/
theorem c142_listen (p : Fin 65536) :
    newCommunication cid (p.1 : Int) [] = .ok ([.ip4 0 0 0 0, .tcp p], none) ∧
    (∀ a b c d : Fin 256, newCommunication cid (p.1 : Int) (ipText a b c d) = .ok ([.ip4 0 0 0 0, .tcp p], some [.ip4 a b c d, .tcp p])) ∧
    ∀ (e : Addr) addrs, announced (some e) addrs = [e] := by
  have h : ∀ a b c d : Fin 256, newMultiaddr cid ("/ip4/".toList ++ ipText a b c d ++ "/tcp/".toList ++ natText p) = some [.ip4 a b c d, .tcp p] := by
    intro a b c d
    have : "/ip4/".toList ++ ipText a b c d ++ "/tcp/".toList ++ natText p = text [.ip4 a b c d, .tcp p] := by simp [text, Comp.text]
    rw [this]
    exact c142_text _ (by simp) (by intro c hc; simp at hc; rcases hc with rfl | rfl <;> trivial)
  have h0 : newMultiaddr cid ("/ip4/0.0.0.0/tcp/".toList ++ natText p) = some [.ip4 0 0 0 0, .tcp p] := by
    rw [← h 0 0 0 0]
    have : "/ip4/".toList ++ ipText 0 0 0 0 ++ "/tcp/".toList = "/ip4/0.0.0.0/tcp/".toList := by decide +kernel
    rw [this]
  refine ⟨?_, fun a b c d => ?_, fun _ _ => rfl⟩
  · unfold newCommunication
    rw [int_text, h0]
    rfl
  · unfold newCommunication
    rw [int_text, h0, h a b c d]
    have : (ipText a b c d).length ≠ 0 := by unfold ipText; simp
    simp only
    rw [if_pos this]

/-- C142: a port above 65535 is refused. -/
theorem c142_port (p : Nat) (hp : 65536 ≤ p) (ip : Str) : newCommunication cid (p : Int) ip = .err "fail to create listen addr" := by
  have : newMultiaddr cid ("/ip4/0.0.0.0/tcp/".toList ++ natText p) = none := by
    have e : "/ip4/0.0.0.0/tcp/".toList ++ natText p = (["ip4".toList, "0.0.0.0".toList, "tcp".toList, natText p] : List Str).flatMap ('/' :: ·) := by simp
    rw [e, read_parts]
    · have r : ∀ v rest, readParts cid ("tcp".toList :: v :: rest) = _ := fun v rest => by rw [readParts, flag_none.2.1]
      have hn : readPort (natText p) = none := by
        unfold readPort
        rcases Nat.lt_or_ge p (2 ^ 63) with h | h
        · rw [atoi_nat h]
          simp only [ge_iff_le]
          rw [if_pos (by omega)]
        · have h1 := nat_head p
          have h2 : ¬ (natText p).head? = some '-' := fun h => h1 (.inl h)
          have h4 : ¬ (-2 ^ 63 ≤ (p : Int) ∧ (p : Int) < 2 ^ 63) := by omega
          have : atoi (natText p) = none := by
            simp only [atoi, if_neg h1, if_neg h2, Props.JsonTexts.decimal_nat, if_neg h4, ite_self]
          rw [this]
      rw [readParts, flag_none.1]
      simp only [r]
      simp [readValue, hn]
      split <;> rfl
    · simp
    · intro q hq
      simp only [List.mem_cons, List.not_mem_nil, or_false] at hq
      rcases hq with rfl | rfl | rfl | rfl
      · decide
      · decide
      · decide
      · exact ⟨nat_ne _, fun e => (nat_letters _ _ e).1 rfl⟩
  unfold newCommunication
  rw [int_text, this]

/-- C142 is false for negative ports: they are not refused, the node listens at another port, the number modulo 65536. -/
theorem c142_negative_port (n : Nat) (h : n < 2 ^ 63) :
    newCommunication cid (.negSucc n) [] = .ok ([.ip4 0 0 0 0, .tcp (Fin.ofNat 65536 (65535 - n % 65536))], none) := by
  have ht : '/' ∉ Json.intText (.negSucc n) := by
    rw [Json.intText, List.mem_cons, not_or]
    exact ⟨by decide, fun e => (nat_letters _ _ e).1 rfl⟩
  have hp : readPort (Json.intText (.negSucc n)) = some (Fin.ofNat 65536 (65535 - n % 65536)) := by
    have ha : atoi (Json.intText (.negSucc n)) = some (.negSucc n) := by
      have h3 : ¬ (natText (n + 1) = [] ∨ (natText (n + 1)).all Char.isDigit = false) := by
        rintro (h | h)
        · exact nat_ne _ h
        · rw [List.all_eq_true.2 (Props.JsonTexts.nat_digits (n + 1))] at h; cases h
      have h4 : -2 ^ 63 ≤ -((n + 1 : Nat) : Int) ∧ -((n + 1 : Nat) : Int) < 2 ^ 63 := by omega
      simp only [atoi, Json.intText, List.head?_cons, true_or, if_true, List.tail_cons, if_neg h3, Props.JsonTexts.decimal_nat, if_pos h4]
      rfl
    unfold readPort
    rw [ha]
    show (if Int.negSucc n ≥ 65536 then none else some (Fin.ofNat 65536 (Int.negSucc n % 65536).toNat)) = _
    rw [if_neg (by omega), show (Int.negSucc n % 65536).toNat = 65535 - n % 65536 by omega]
  have : newMultiaddr cid ("/ip4/0.0.0.0/tcp/".toList ++ Json.intText (.negSucc n)) = some [.ip4 0 0 0 0, .tcp (Fin.ofNat 65536 (65535 - n % 65536))] := by
    have e : "/ip4/0.0.0.0/tcp/".toList ++ Json.intText (.negSucc n) =
        (["ip4".toList, "0.0.0.0".toList, "tcp".toList, Json.intText (.negSucc n)] : List Str).flatMap ('/' :: ·) := by simp
    rw [e, read_parts]
    · have r : ∀ v rest, readParts cid ("tcp".toList :: v :: rest) = _ := fun v rest => by rw [readParts, flag_none.2.1]
      have hz : "0.0.0.0".toList = ipText 0 0 0 0 := by decide +kernel
      have hi : readValue cid "ip4".toList "0.0.0.0".toList = some (.ip4 0 0 0 0) := by
        rw [hz, readValue, if_pos rfl, read_ip]
      have ht : readValue cid "tcp".toList (Json.intText (.negSucc n)) = some (.tcp (Fin.ofNat 65536 (65535 - n % 65536))) := by
        rw [readValue, if_neg (by decide), if_pos rfl, hp]
        rfl
      rw [readParts, flag_none.1]
      simp only [r, hi, ht]
      simp [readParts]
    · simp
    · intro q hq
      simp only [List.mem_cons, List.not_mem_nil, or_false] at hq
      rcases hq with rfl | rfl | rfl | rfl
      · decide
      · decide
      · decide
      · exact ⟨by simp [Json.intText], ht⟩
  unfold newCommunication
  rw [this]
  rfl

/-- C142: the external address is not checked to be an address: any text that makes the whole readable is taken. -/
theorem c142_external_unchecked : newCommunication cid 6668 "10.0.0.1/udp/9".toList = .ok ([.ip4 0 0 0 0, .tcp 6668], some [.ip4 10 0 0 1, .udp 9, .tcp 6668]) := by
  have h2 : newMultiaddr cid (text [.ip4 10 0 0 1, .udp 9, .tcp 6668]) = _ :=
    c142_text _ (by simp) (by intro c hc; simp at hc; rcases hc with rfl | rfl | rfl <;> trivial)
  unfold newCommunication
  have h0 : newMultiaddr cid (text [.ip4 0 0 0 0, .tcp 6668]) = _ :=
    c142_text _ (by simp) (by intro c hc; simp at hc; rcases hc with rfl | rfl <;> trivial)
  rw [show text [.ip4 0 0 0 0, .tcp 6668] = "/ip4/0.0.0.0/tcp/".toList ++ Json.intText 6668 by decide +kernel] at h0
  rw [h0]
  have e : "/ip4/".toList ++ "10.0.0.1/udp/9".toList ++ "/tcp/".toList ++ Json.intText 6668 = text [.ip4 10 0 0 1, .udp 9, .tcp 6668] := by decide +kernel
  rw [e, h2]
  rfl

/-! ## A node with a book -/

/-- two peers -/
def peerA : Bytes := [0x12, 0x20] ++ List.replicate 32 7
/-- two peers -/
def peerB : Bytes := [0x12, 0x20] ++ List.replicate 32 9

theorem peers_good : IsPeerId peerA ∧ IsPeerId peerB := ⟨.inr ⟨_, by simp, rfl⟩, .inr ⟨_, by simp, rfl⟩⟩

/-- their addresses -/
def demoBook : Map Bytes (List Addr) :=
  [(peerA, [[.ip4 10 0 0 1, .tcp 6668], [.ip4 127 0 0 1, .tcp 6668]]), (peerB, [[.dns .dns4 "tss.example.com".toList, .tcp 443, .flag .wss], [.ip4 10 0 0 2, .udp 1, .flag .quic]])]

theorem demo_good : GoodBook demoBook := by
  intro q addrs h
  simp only [demoBook, List.mem_cons, List.not_mem_nil, or_false, Prod.mk.injEq] at h
  rcases h with ⟨rfl, rfl⟩ | ⟨rfl, rfl⟩
  · refine ⟨peers_good.1, ?_⟩
    intro a ha
    simp only [List.mem_cons, List.not_mem_nil, or_false] at ha
    rcases ha with rfl | rfl <;> (constructor <;> intro c hc <;> simp only [List.mem_cons, List.not_mem_nil, or_false] at hc <;> rcases hc with rfl | rfl <;> trivial)
  · refine ⟨peers_good.2, ?_⟩
    intro a ha
    simp only [List.mem_cons, List.not_mem_nil, or_false] at ha
    rcases ha with rfl | rfl <;> (constructor <;> intro c hc <;> simp only [List.mem_cons, List.not_mem_nil, or_false] at hc <;> rcases hc with rfl | rfl | rfl <;> trivial)

example : Props.Storage.entries (env fun _ => none) demoBook =
    [([.ip4 10 0 0 1, .tcp 6668], peerA), ([.dns .dns4 "tss.example.com".toList, .tcp 443, .flag .wss], peerB), ([.ip4 10 0 0 2, .udp 1, .flag .quic], peerB)] := by
  decide +kernel

example := c142_contacts_partial (cid := fun _ => none) ["home"] ⟨List.reverse, fun l => List.reverse_perm l⟩ demoBook demo_good none [] rfl

example : text [.ip4 10 0 0 1, .tcp 6668, .p2p peerA] = "/ip4/10.0.0.1/tcp/6668/p2p/QmNp5n7FFav5ZDaHAj6HzuhJ8LDbL1N6NRzAgT6piWS2Kx".toList := by decide +kernel

/-- settings of a node without peers on the command line -/
def demoSettings : Startup.Settings Addr := ⟨true, true, some ["home"], [], true, some true, true⟩

example := c142_start_partial (cid := fun _ => none) demoSettings ["home"] rfl (by intro p hp; cases hp) ⟨List.reverse, fun l => List.reverse_perm l⟩ demoBook demo_good none [] rfl

/-- a book with the address of a socket -/
def pathBook : Map Bytes (List Addr) := [(peerA, [[.ip4 10 0 0 1, .tcp 6668]]), (peerB, [[.unix "run/tss.sock".toList]])]

example (w : Startup.World Addr) (n : Startup.Node Addr) : Startup.NewTss (env fun _ => none) hasID demoSettings (some true) w
    (Storage.SaveAddressBook (env fun _ => none) (some ["home"]) (Shuffle.id _) pathBook none []).1 ≠ .ok n := by
  refine c142_path_blocks (cid := fun _ => none) demoSettings ["home"] rfl (Shuffle.id _) pathBook ?_ none [] rfl peerB _ [] "run/tss.sock".toList
    (by simp [pathBook]) (List.mem_singleton_self _) (by decide +kernel) (some true) w n
  intro q addrs h
  simp only [pathBook, List.mem_cons, List.not_mem_nil, or_false, Prod.mk.injEq] at h
  rcases h with ⟨rfl, rfl⟩ | ⟨rfl, rfl⟩
  · refine ⟨peers_good.1, fun a ha => ?_⟩
    rw [List.mem_singleton.1 ha]
    exact ⟨.inl fun c hc => by simp at hc; rcases hc with rfl | rfl <;> trivial, fun c hc => by simp at hc; rcases hc with rfl | rfl <;> trivial⟩
  · refine ⟨peers_good.2, fun a ha => ?_⟩
    rw [List.mem_singleton.1 ha]
    exact ⟨.inr ⟨[], _, rfl, fun c hc => by cases hc⟩, fun c hc => by rw [List.mem_singleton.1 hc]; show '\n' ∉ _; decide⟩

example (w : Startup.World Addr) (n : Startup.Node Addr) := c142_line_break (cid := fun _ => none) demoSettings ["home"] rfl (Shuffle.id _) peerB peers_good.2 .dns4
  "a".toList (by decide) [.tcp 1] (fun c hc => by rw [List.mem_singleton.1 hc]; trivial) (fun c hc => by rw [List.mem_singleton.1 hc]; trivial)
  (by decide +kernel) [] (some true) w n

/-! ## slashes at the end -/

theorem trim_slashes (s : Str) (n : Nat) : Multiaddr.trimRight (s ++ List.replicate n '/') = Multiaddr.trimRight s := by
  unfold Multiaddr.trimRight
  simp [List.reverse_append]

/-- C142: slashes at the end of an address do not matter. -/
theorem c142_slashes (cid : Str → Option Bytes) (s : Str) (n : Nat) : newMultiaddr cid (s ++ List.replicate n '/') = newMultiaddr cid s := by
  unfold newMultiaddr
  rw [trim_slashes]

/-- C142: such an address -/
example (cid : Str → Option Bytes) : newMultiaddr cid "/ip4/127.0.0.1/tcp/80//".toList = some [.ip4 127 0 0 1, .tcp 80] := by
  rw [show "/ip4/127.0.0.1/tcp/80//".toList = "/ip4/127.0.0.1/tcp/80".toList ++ List.replicate 2 '/' by decide +kernel, c142_slashes,
    show "/ip4/127.0.0.1/tcp/80".toList = text [.ip4 127 0 0 1, .tcp 80] by decide +kernel]
  exact c142_text _ (by simp) (by intro c hc; simp only [List.mem_cons, List.not_mem_nil, or_false] at hc; rcases hc with rfl | rfl <;> trivial)

end Verif.Props.Multiaddr
