import Verif.Model.Startup
import Verif.Props.C54_C57

/-! # C64, C84, C85, C86: starting and stopping a node -/
set_option linter.unusedSectionVars false
namespace Verif.Props.Startup
open Verif.Go Verif.Startup

variable {A Q : Type}

theorem anyVerdict_eq : ∀ l : List Bool, anyVerdict l.length l = if true ∈ l then .ok () else .err "fail to connect to any peer"
  | [] => rfl
  | true :: l => by simp [anyVerdict]
  | false :: l => by simp [anyVerdict, anyVerdict_eq l]

/-- C64: for bootstrap addresses with a peer id, connecting succeeds exactly when none is configured or at least one is reached, whatever
the order in which the attempts finish; otherwise it is an error. -/
theorem c64_verdict_partial (hasID : A → Bool) (peers : List A) (hid : ∀ p ∈ peers, hasID p = true) (a : Attempt A) :
    (connectToBootstrapPeers hasID peers a = .ok () ↔ peers = [] ∨ ∃ p ∈ peers, a.reached p = true) ∧
    connectToBootstrapPeers hasID peers a ≠ .panic := by
  unfold connectToBootstrapPeers
  cases peers with
  | nil => simp
  | cons p l =>
    rw [if_neg (by simp), if_pos (List.all_eq_true.2 hid)]
    have hlen : (p :: l).length = (a.order.f ((p :: l).map a.reached)).length := by rw [(a.order.perm _).length_eq, List.length_map]
    rw [hlen, anyVerdict_eq]
    have : true ∈ a.order.f ((p :: l).map a.reached) ↔ ∃ q ∈ p :: l, a.reached q = true := by rw [a.order.mem, List.mem_map]
    by_cases h : true ∈ a.order.f ((p :: l).map a.reached)
    · rw [if_pos h]
      exact ⟨⟨fun _ => .inr (this.1 h), fun _ => rfl⟩, by simp⟩
    · rw [if_neg h]
      refine ⟨⟨fun h => (by cases h), fun h' => ?_⟩, by simp⟩
      rcases h' with h' | h'
      · cases h'
      · exact absurd (this.2 h') h

/-- C64 is false when a configured address has no peer id: connecting fails although every other peer can be reached. -/
theorem c64_malformed (hasID : A → Bool) (peers : List A) (p : A) (hp : p ∈ peers) (hid : hasID p = false) (a : Attempt A) :
    connectToBootstrapPeers hasID peers a = .err "fail to add peer" := by
  unfold connectToBootstrapPeers
  rw [if_neg (by intro h; rw [List.length_eq_zero_iff.1 h] at hp; cases hp), if_neg]
  intro h
  rw [List.all_eq_true.1 h p hp] at hid
  cases hid

theorem tryConnect_ok (hasID : A → Bool) (peers : List A) : ∀ l : List (Attempt A), l ≠ [] →
    ((tryConnect hasID peers l).1 = .ok () ↔ ∃ a ∈ l, connectToBootstrapPeers hasID peers a = .ok ())
  | [], h => absurd rfl h
  | [a], _ => by simp [tryConnect]
  | a :: b :: l, _ => by
    rw [tryConnect]
    cases ha : connectToBootstrapPeers hasID peers a with
    | ok u => cases u; simp [ha]
    | err e => simp [ha, tryConnect_ok hasID peers (b :: l)]
    | panic => simp [ha, tryConnect_ok hasID peers (b :: l)]

theorem startChannel_ok (hasID : A → Bool) (peers : List A) (w : World A) :
    startChannel hasID peers w = .ok () ↔ (w.keyOk = true ∧ w.hostOk = true ∧ w.dhtOk = true) ∧
      (peers = [] ∨ (∀ p ∈ peers, hasID p = true) ∧ (∃ i : Fin 5, ∃ p ∈ peers, (w.attempts i).reached p = true) ∧
          ∃ p ∈ peers, w.pong p = true) := by
  unfold startChannel
  cases hk : w.keyOk
  · simp
  cases hh : w.hostOk
  · simp
  cases hd : w.dhtOk
  · simp
  simp only [Bool.true_eq_false, if_false, true_and]
  have hne : List.ofFn w.attempts ≠ [] := by
    intro h
    have := congrArg List.length h
    simp at this
  have ht := tryConnect_ok hasID peers (List.ofFn w.attempts) hne
  have hex : (∃ a ∈ List.ofFn w.attempts, connectToBootstrapPeers hasID peers a = .ok ()) ↔
      ∃ i : Fin 5, connectToBootstrapPeers hasID peers (w.attempts i) = .ok () := by
    constructor
    · rintro ⟨a, ha, h⟩
      obtain ⟨i, rfl⟩ := List.mem_ofFn.1 ha
      exact ⟨i, h⟩
    · rintro ⟨i, h⟩
      exact ⟨_, List.mem_ofFn.2 ⟨i, rfl⟩, h⟩
  rw [hex] at ht
  by_cases hid : ∀ p ∈ peers, hasID p = true
  · have hcheck : bootStrapConnectivityCheck hasID peers w.pong = .ok () ↔ peers = [] ∨ ∃ p ∈ peers, w.pong p = true := by
      unfold bootStrapConnectivityCheck
      by_cases h0 : peers = []
      · simp [h0]
      · rw [if_neg (by simpa using h0)]
        by_cases hp : ∃ p ∈ peers, w.pong p = true
        · obtain ⟨p, hp, hpo⟩ := hp
          rw [if_pos (List.length_pos_iff.2 (List.ne_nil_of_mem (List.mem_filter.2 ⟨hp, by rw [hid p hp, hpo]; rfl⟩)))]
          exact ⟨fun _ => .inr ⟨p, hp, hpo⟩, fun _ => rfl⟩
        · rw [if_neg]
          · exact ⟨fun h => (by cases h), fun h => by rcases h with h | h; exacts [absurd h h0, absurd h hp]⟩
          · intro hl
            obtain ⟨p, hp'⟩ := List.exists_mem_of_length_pos hl
            obtain ⟨h1, h2⟩ := List.mem_filter.1 hp'
            exact hp ⟨p, h1, (Bool.and_eq_true_iff.1 h2).2⟩
    have hcon : (∃ i : Fin 5, connectToBootstrapPeers hasID peers (w.attempts i) = .ok ()) ↔
        peers = [] ∨ ∃ i : Fin 5, ∃ p ∈ peers, (w.attempts i).reached p = true := by
      constructor
      · rintro ⟨i, h⟩
        rcases (c64_verdict_partial hasID peers hid (w.attempts i)).1.1 h with h | h
        · exact .inl h
        · exact .inr ⟨i, h⟩
      · rintro (h | ⟨i, h⟩)
        · exact ⟨0, (c64_verdict_partial hasID peers hid _).1.2 (.inl h)⟩
        · exact ⟨i, (c64_verdict_partial hasID peers hid _).1.2 (.inr h)⟩
    rw [hcon] at ht
    cases hr : (tryConnect hasID peers (List.ofFn w.attempts)).1 with
    | ok u =>
      cases u
      rw [hcheck]
      rcases ht.1 hr with h0 | h0
      · exact ⟨fun _ => .inl h0, fun _ => .inl h0⟩
      · exact ⟨fun h => h.imp id fun h => ⟨hid, h0, h⟩, fun h => h.imp id fun h => h.2.2⟩
    | err e =>
      rw [hr] at ht
      simp only [reduceCtorEq, false_iff] at ht ⊢
      exact fun h => ht (h.imp id fun h => h.2.1)
    | panic =>
      rw [hr] at ht
      simp only [reduceCtorEq, false_iff] at ht ⊢
      exact fun h => ht (h.imp id fun h => h.2.1)
  · obtain ⟨p, hp⟩ := not_forall.1 hid
    rw [Classical.not_imp] at hp
    have hno : ¬ ∃ i : Fin 5, connectToBootstrapPeers hasID peers (w.attempts i) = .ok () := by
      rintro ⟨i, h⟩
      rw [c64_malformed hasID peers p hp.1 (by simpa using hp.2)] at h
      cases h
    have h0 : peers ≠ [] := List.ne_nil_of_mem hp.1
    cases hr : (tryConnect hasID peers (List.ofFn w.attempts)).1 with
    | ok u =>
      cases u
      exact absurd (ht.1 hr) hno
    | err e => exact ⟨fun h => (by cases h), fun h => by rcases h with h | h; exacts [absurd h h0, absurd h.1 hid]⟩
    | panic => exact ⟨fun h => (by cases h), fun h => by rcases h with h | h; exacts [absurd h h0, absurd h.1 hid]⟩

/-- the settings of the node are usable -/
structure Usable (s : Settings A) (generated : Option Bool) (w : World A) : Prop where
  pubKey : s.pubKeyOk = true
  folder : s.folderOk = true
  addr : s.addrOk = true
  pre : s.pre = some true ∨ generated = some true
  raw : s.rawKeyOk = true
  key : w.keyOk = true
  host : w.hostOk = true
  dht : w.dhtOk = true

/-- C84: a node starts exactly when its settings are usable and either there is no bootstrap peer, or all of them have a peer id, one of them is
reached in one of five attempts, and one of them answers the ping. -/
theorem c84_starts_iff (aenv : Storage.AddrEnv A Q) (hasID : A → Bool) (s : Settings A) (generated : Option Bool) (w : World A) (d : Storage.Disk) :
    (∃ n, NewTss aenv hasID s generated w d = .ok n) ↔
      Usable s generated w ∧ (bootstrapPeers aenv s d = [] ∨
        (∀ p ∈ bootstrapPeers aenv s d, hasID p = true) ∧ (∃ i : Fin 5, ∃ p ∈ bootstrapPeers aenv s d, (w.attempts i).reached p = true) ∧
          ∃ p ∈ bootstrapPeers aenv s d, w.pong p = true) := by
  have hstart := startChannel_ok hasID (bootstrapPeers aenv s d) w
  have husable : Usable s generated w ↔ (s.pubKeyOk = true ∧ s.folderOk = true ∧ s.addrOk = true ∧ (s.pre = some true ∨ generated = some true) ∧
      s.rawKeyOk = true) ∧ (w.keyOk = true ∧ w.hostOk = true ∧ w.dhtOk = true) :=
    ⟨fun ⟨a, b, c, d, e, f, g, h⟩ => ⟨⟨a, b, c, d, e⟩, f, g, h⟩, fun ⟨⟨a, b, c, d, e⟩, f, g, h⟩ => ⟨a, b, c, d, e, f, g, h⟩⟩
  rw [husable, and_assoc, ← hstart]
  unfold NewTss preParams
  cases s.pubKeyOk
  · simp
  cases s.folderOk
  · simp
  cases s.addrOk
  · simp
  cases s.rawKeyOk
  · by_cases hp : s.pre = some true
    · simp [hp]
    · rcases generated with _ | _ | _ <;> simp [hp]
  have hbind : (∃ n, (startChannel hasID (bootstrapPeers aenv s d) w).bind (fun _ => Res.ok (⟨bootstrapPeers aenv s d, false⟩ : Node A)) = .ok n) ↔
      startChannel hasID (bootstrapPeers aenv s d) w = .ok () := by
    cases startChannel hasID (bootstrapPeers aenv s d) w with
    | ok u => cases u; simp
    | err e => simp
    | panic => simp
  by_cases hp : s.pre = some true
  · simp only [Bool.true_eq_false, if_false, hp, if_true, reduceCtorEq, ne_eq, not_true, true_or, true_and]
    exact hbind
  · rcases generated with _ | _ | _
    · simp [hp]
    · simp [hp]
    · simp only [Bool.true_eq_false, if_false, hp, reduceCtorEq, ne_eq, not_true, or_true, true_and]
      exact hbind

theorem connect_no_panic (hasID : A → Bool) (peers : List A) (a : Attempt A) : connectToBootstrapPeers hasID peers a ≠ .panic := by
  by_cases hid : ∀ p ∈ peers, hasID p = true
  · exact (c64_verdict_partial hasID peers hid a).2
  · obtain ⟨p, hp⟩ := not_forall.1 hid
    rw [Classical.not_imp] at hp
    rw [c64_malformed hasID peers p hp.1 (by simpa using hp.2)]
    simp

/-- C84: a start never panics, and never waits for a verdict that does not come. -/
theorem c84_no_panic (aenv : Storage.AddrEnv A Q) (hasID : A → Bool) (s : Settings A) (generated : Option Bool) (w : World A) (d : Storage.Disk) :
    NewTss aenv hasID s generated w d ≠ .panic := by
  have htry : ∀ (peers : List A) (l : List (Attempt A)), (tryConnect hasID peers l).1 ≠ .panic := by
    intro peers l
    induction l with
    | nil => simp [tryConnect]
    | cons a l ih =>
      cases l with
      | nil => exact connect_no_panic hasID peers a
      | cons b l =>
        rw [tryConnect]
        split
        · simp
        · exact ih
  have hs : startChannel hasID (bootstrapPeers aenv s d) w ≠ .panic := by
    unfold startChannel
    split
    · simp
    split
    · simp
    split
    · simp
    have := htry (bootstrapPeers aenv s d) (List.ofFn w.attempts)
    split
    · unfold bootStrapConnectivityCheck
      split
      · simp
      split <;> simp
    · simp
    · rename_i h; exact absurd h this
  unfold NewTss
  split
  · simp
  split
  · simp
  split
  · simp
  split
  · simp
  split
  · simp
  split
  · simp
  cases h : startChannel hasID (bootstrapPeers aenv s d) w with
  | ok u => simp
  | err e => simp
  | panic => exact absurd h hs

/-- C84: at most five attempts are made to reach a bootstrap peer, and no further one after a success. -/
theorem c84_attempts (hasID : A → Bool) (peers : List A) : ∀ l : List (Attempt A),
    (tryConnect hasID peers l).2 ≤ l.length ∧ ∀ i (h : i < l.length), i + 1 < (tryConnect hasID peers l).2 → connectToBootstrapPeers hasID peers l[i] ≠ .ok ()
  | [] => by simp [tryConnect]
  | [a] => by simp [tryConnect]
  | a :: b :: l => by
    rw [tryConnect]
    split
    · simp
    · rename_i hne
      obtain ⟨h1, h2⟩ := c84_attempts hasID peers (b :: l)
      refine ⟨by simpa using h1, ?_⟩
      intro i hi hlt
      cases i with
      | zero => exact fun h => hne h
      | succ i =>
        simp only [List.getElem_cons_succ]
        exact h2 i (by simpa using hi) (by simpa using hlt)

/-- C85: the bootstrap peers of the command line are always used. -/
theorem c85_command_line (aenv : Storage.AddrEnv A Q) (s : Settings A) (d : Storage.Disk) : ∀ p ∈ s.cmdPeers, p ∈ bootstrapPeers aenv s d := by
  intro p hp
  unfold bootstrapPeers
  split
  · exact List.mem_append_right _ hp
  · exact hp

/-- the same for a book of which only the saved records are known to be good -/
theorem saved_peers_on (aenv : Storage.AddrEnv A Q) (encap : A → Q → A) (s : Settings A)
    (dir : Storage.Path) (hdir : s.folder = some dir) (σ : Shuffle (Q × List A)) (book : Map Q (List A)) (f : Option Storage.Fault) (d : Storage.Disk)
    (hok : (Storage.SaveAddressBook aenv (some dir) σ book f d).2 = .ok ())
    (htext : ∀ t, aenv.text (aenv.bytes t) = t) (hline : ∀ e ∈ Props.Storage.entries aenv book, '\n' ∉ aenv.addrStr e.1 ∧ '\n' ∉ aenv.peerStr e.2 ∧
      aenv.parse (aenv.addrStr e.1 ++ "/p2p/".toList ++ aenv.peerStr e.2) = some (encap e.1 e.2)) (p : A) :
    p ∈ bootstrapPeers aenv s (Storage.SaveAddressBook aenv (some dir) σ book f d).1 ↔
      (∃ q addrs a, (q, addrs) ∈ book ∧ a ∈ addrs ∧ ¬ "127.0.0.1".toList <:+: aenv.addrStr a ∧ p = encap a q) ∨ p ∈ s.cmdPeers := by
  obtain ⟨l, h1, h2⟩ := Props.Storage.round_trip_on aenv encap dir σ book f d hok htext hline
  unfold bootstrapPeers
  rw [hdir, h1]
  simp only [List.mem_append]
  rw [h2.mem_iff, List.mem_map]
  constructor
  · rintro (⟨⟨a, q⟩, he, rfl⟩ | h)
    · left
      unfold Props.Storage.entries at he
      obtain ⟨⟨q', addrs⟩, hb, he⟩ := List.mem_flatMap.1 he
      obtain ⟨a', ha, he⟩ := List.mem_map.1 he
      cases he
      obtain ⟨h3, h4⟩ := List.mem_filter.1 ha
      exact ⟨q', addrs, _, hb, h3, of_decide_eq_true h4, rfl⟩
    · exact .inr h
  · rintro (⟨q, addrs, a, hb, ha, hl, rfl⟩ | h)
    · left
      refine ⟨(a, q), ?_, rfl⟩
      unfold Props.Storage.entries
      exact List.mem_flatMap.2 ⟨(q, addrs), hb, List.mem_map.2 ⟨a, List.mem_filter.2 ⟨ha, decide_eq_true hl⟩, rfl⟩⟩
    · exact .inr h

/-- C85: after the address book was saved, a restart uses exactly the saved addresses (each with its peer id, loopback addresses left out) and
those of the command line. -/
theorem c85_saved_peers (aenv : Storage.AddrEnv A Q) (encap : A → Q → A) (g : Props.Storage.GoodAddr aenv encap) (s : Settings A)
    (dir : Storage.Path) (hdir : s.folder = some dir) (σ : Shuffle (Q × List A)) (book : Map Q (List A)) (f : Option Storage.Fault) (d : Storage.Disk)
    (hok : (Storage.SaveAddressBook aenv (some dir) σ book f d).2 = .ok ()) (p : A) :
    p ∈ bootstrapPeers aenv s (Storage.SaveAddressBook aenv (some dir) σ book f d).1 ↔
      (∃ q addrs a, (q, addrs) ∈ book ∧ a ∈ addrs ∧ ¬ "127.0.0.1".toList <:+: aenv.addrStr a ∧ p = encap a q) ∨ p ∈ s.cmdPeers :=
  saved_peers_on aenv encap s dir hdir σ book f d hok g.text (fun e _ => ⟨g.addr e.1, g.peer e.2, g.parse e.1 e.2⟩) p

/-- C85: when the address book cannot be read, only the peers of the command line are used. -/
theorem c85_unreadable (aenv : Storage.AddrEnv A Q) (s : Settings A) (d : Storage.Disk) (h : ∀ l, Storage.RetrieveP2PAddresses aenv s.folder d ≠ .ok l) :
    bootstrapPeers aenv s d = s.cmdPeers := by
  unfold bootstrapPeers
  split
  · rename_i l hl; exact absurd hl (h l)
  · rfl

/-- C85 is false without a folder: when its name is empty (which is the default of the command line), known peers are never saved and never used. -/
theorem c85_no_home (aenv : Storage.AddrEnv A Q) (σ : Shuffle (Q × List A)) (book : Map Q (List A)) (f : Option Storage.Fault) (d : Storage.Disk) (s : Settings A)
    (h : s.folder = none) : (Storage.SaveAddressBook aenv none σ book f d) = (d, .err "base file path is invalid") ∧ bootstrapPeers aenv s d = s.cmdPeers := by
  refine ⟨rfl, ?_⟩
  unfold bootstrapPeers
  rw [h]
  rfl

/-- C86: a started node can be stopped. -/
theorem c86_stop_partial (aenv : Storage.AddrEnv A Q) (hasID : A → Bool) (s : Settings A) (generated : Option Bool) (w : World A) (d : Storage.Disk)
    (n : Node A) (h : NewTss aenv hasID s generated w d = .ok n) : ∃ n', Stop n = .ok n' := by
  unfold NewTss at h
  split at h
  · cases h
  split at h
  · cases h
  split at h
  · cases h
  split at h
  · cases h
  split at h
  · cases h
  split at h
  · cases h
  obtain ⟨-, -, h⟩ := Res.bind_eq_ok.1 h
  cases h
  exact ⟨_, rfl⟩

/-- C86 is false: stopping a stopped node panics. -/
theorem c86_stop_twice (n n' : Node A) (h : Stop n = .ok n') : Stop n' = .panic := by
  unfold Stop at h
  split at h
  · cases h
  · cases h
    rfl

/-! ## Examples and limits -/

/-- does the text contain "/p2p/"? -/
def hasID (a : List Char) : Bool := TssCommon.strContains a "/p2p/".toList

/-- settings -/
def settings : Settings (List Char) := ⟨true, true, some ["home"], ["/ip4/9.9.9.9/tcp/6668/p2p/Qz".toList], true, none, true⟩

/-- all peers can be reached -/
def world : World (List Char) := ⟨true, true, true, fun _ => ⟨fun _ => true, Shuffle.id _⟩, fun _ => true⟩

/-- a book with one address -/
def book : Map (List Char) (List (List Char)) := [("Qm".toList, ["/ip4/1.2.3.4/tcp/6668".toList])]

/-- with the book the node starts, and knows two peers -/
example : NewTss Props.Storage.demoAddr hasID settings (some true) world
    (Storage.SaveAddressBook Props.Storage.demoAddr (some ["home"]) (Shuffle.id _) book none []).1 =
      .ok ⟨["/ip4/1.2.3.4/tcp/6668/p2p/Qm".toList, "/ip4/9.9.9.9/tcp/6668/p2p/Qz".toList], false⟩ := by decide +kernel

/-- C85 is false for a damaged address book: a crash while it is written (here after 20 bytes) keeps the node from starting again, although the
bootstrap peer of the command line can be reached; without the file the node starts. -/
theorem c85_damaged_book :
    NewTss Props.Storage.demoAddr hasID settings (some true) world
      (Storage.SaveAddressBook Props.Storage.demoAddr (some ["home"]) (Shuffle.id _) book (some (.after 20)) []).1 =
        .err "fail to connect to bootstrap peer" ∧
    ∃ n, NewTss Props.Storage.demoAddr hasID settings (some true) world [] = .ok n := by
  refine ⟨by decide +kernel, ⟨["/ip4/9.9.9.9/tcp/6668/p2p/Qz".toList], false⟩, by decide +kernel⟩

end Verif.Props.Startup
