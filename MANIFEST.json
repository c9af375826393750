{
 "claims": [
  {
   "property": "C01",
   "status": "proved",
   "theorems": [
    "Verif.Props.C01.threshold_exact",
    "Verif.Props.C01.threshold_bounds",
    "Verif.Props.C01.threshold_limit",
    "Verif.Props.C01.threshold_negative",
    "Verif.Props.C01.signing_party_fits",
    "Verif.Props.C01.signing_parties_intersect"
   ],
   "note": "binary64 rounding is modelled operation by operation; proved for committees up to 3*2^51; threshold_limit shows that the formula is off at 3*2^51+2."
  },
  {
   "property": "C02",
   "status": "proved",
   "theorems": [
    "Verif.Props.Conv.c02_hashint_value",
    "Verif.Props.Conv.c02_hashint_bounded",
    "Verif.Props.Conv.c02_hashint_injective",
    "Verif.Props.Conv.c02_hashint_prefix"
   ],
   "note": ""
  },
  {
   "property": "C03",
   "status": "proved",
   "theorems": [
    "Verif.Props.Conv.c03_parties_order_independent",
    "Verif.Props.Conv.c03_parties_fails_iff",
    "Verif.Props.Conv.c03_parties_describe"
   ],
   "note": "Generic in the key order and the bech32 codec."
  },
  {
   "property": "C04",
   "status": "proved",
   "theorems": [
    "Verif.Props.Conv.c04_conversions_inverse",
    "Verif.Props.Conv.c04_leading_zero_lost"
   ],
   "note": "For valid canonical compressed keys; c04_leading_zero_lost shows why the compressed-key prefix byte is needed."
  },
  {
   "property": "C05",
   "status": "proved",
   "theorems": [
    "Verif.Props.Conv.c05_accpubkeys_exact",
    "Verif.Props.Conv.c05_accpubkeys_unknown",
    "Verif.Props.Conv.c05_partymap",
    "Verif.Props.Conv.c05_setup_success_iff",
    "Verif.Props.Conv.c05_setup_values",
    "Verif.Props.Conv.c05_peers_mem",
    "Verif.Props.Conv.c05_peers_once"
   ],
   "note": ""
  },
  {
   "property": "C06",
   "status": "proved",
   "theorems": [
    "Verif.Props.C06.prCmp_lt",
    "Verif.Props.C06.prCmp_eq",
    "Verif.Props.C06.preLoop_lt",
    "Verif.Props.C06.verCmp_lt",
    "Verif.Props.C06.c06_version_check_exact",
    "Verif.Props.C06.c06_version_check_fails_iff",
    "Verif.Props.C06.idPrec_irrefl",
    "Verif.Props.C06.idPrec_trans",
    "Verif.Props.C06.idPrec_tri",
    "Verif.Props.C06.listPrec_irrefl",
    "Verif.Props.C06.listPrec_trans",
    "Verif.Props.C06.listPrec_tri",
    "Verif.Props.C06.c06_strict_total_order",
    "Verif.Props.C06.c06_join_mode"
   ],
   "note": "Comparison of parsed versions; the parser is a parameter."
  },
  {
   "property": "C07",
   "status": "partial",
   "theorems": [
    "Verif.Props.Conv.c07_prikey_refused",
    "Verif.Props.Conv.c07_prikey_exact_partial",
    "Verif.Props.Conv.c07_prikey_long_partial",
    "Verif.Props.Conv.c07_prikey_accepts_iff",
    "Verif.Props.Conv.c07_short_key_accepted",
    "Verif.Props.Conv.c07_tiny_key_panics"
   ],
   "note": "The property is false as stated: c07_short_key_accepted and c07_tiny_key_panics are counterexamples; c07_prikey_accepts_iff gives the exact acceptance rule."
  },
  {
   "property": "C08",
   "status": "proved",
   "theorems": [
    "Verif.Props.C08.keyStore_get",
    "Verif.Props.C08.c08_leader_is_min",
    "Verif.Props.C08.c08_leader_fails_iff",
    "Verif.Props.C08.c08_leader_order_independent",
    "Verif.Props.C08.c08_injective_hash_suffices",
    "Verif.Props.C08.c08_collision_breaks_agreement"
   ],
   "note": "Needs distinct hashes, as stated; c08_collision_breaks_agreement shows it is needed. C145 states it for the real SHA-256."
  },
  {
   "property": "C09",
   "status": "proved",
   "theorems": [
    "Verif.Props.MsgId.c09_msgid_order_independent",
    "Verif.Props.MsgId.c09_no_id_iff_blank",
    "Verif.Props.MsgId.c09_empty_refused"
   ],
   "note": ""
  },
  {
   "property": "C10",
   "status": "partial",
   "theorems": [
    "Verif.Props.MsgId.c10_keygen_ids_separate_partial",
    "Verif.Props.MsgId.c10_keysign_ids_separate_partial",
    "Verif.Props.MsgId.c10_message_absorbs_key",
    "Verif.Props.MsgId.c10_keygen_keysign_collide",
    "Verif.Props.MsgId.c10_pool_key_ignored"
   ],
   "note": "False as stated (c10_message_absorbs_key, c10_keygen_keysign_collide, c10_pool_key_ignored); separation is proved for comma-free requests of one kind whose two hashed texts do not collide (C145: for the real SHA-256)."
  },
  {
   "property": "C11",
   "status": "proved",
   "theorems": [
    "Verif.Props.Framing.c11_roundtrip"
   ],
   "note": "All chunkings of the transport."
  },
  {
   "property": "C12",
   "status": "proved",
   "theorems": [
    "Verif.Props.Framing.c12_truncated_refused",
    "Verif.Props.Framing.c12_write_reported",
    "Verif.Props.Framing.c12_failed_write_unreadable",
    "Verif.Props.Framing.c12_oversized_refused",
    "Verif.Props.Framing.c12_too_large_payload",
    "Verif.Props.Framing.c12_accepted_bounded",
    "Verif.Props.Framing.c12_wraparound"
   ],
   "note": "Header arithmetic is modelled modulo 2^32 on the writer side."
  },
  {
   "property": "C13",
   "status": "proved",
   "theorems": [
    "Verif.Props.StreamRelease.c13_released_streams_reset",
    "Verif.Props.StreamRelease.c13_only_released_streams_reset",
    "Verif.Props.StreamRelease.c13_others_retained",
    "Verif.Props.StreamRelease.c13_released_forgotten"
   ],
   "note": "Calls that do not overlap; overlapping calls are C68."
  },
  {
   "property": "C14",
   "status": "partial",
   "theorems": [
    "Verif.Props.StreamRelease.c14_unknown_never_forgotten",
    "Verif.Props.StreamRelease.c14_unknown_accumulates",
    "Verif.Props.StreamRelease.c14_session_streams_forgotten_partial"
   ],
   "note": "False for UNKNOWN streams: c14_unknown_never_forgotten for every history; holds for the streams of a session."
  },
  {
   "property": "C15",
   "status": "proved",
   "theorems": [
    "Verif.Props.Subscriptions.c15_subscribers_refine_map"
   ],
   "note": ""
  },
  {
   "property": "C16",
   "status": "proved",
   "theorems": [
    "Verif.Props.Subscriptions.c16_session_leaves_nothing",
    "Verif.Props.Subscriptions.c16_session_leaves_no_topic",
    "Verif.Props.Subscriptions.c16_others_undisturbed",
    "Verif.Props.Subscriptions.c16_same_id_overlap_disturbs"
   ],
   "note": "c16_same_id_overlap_disturbs shows the limit: two overlapping calls with the same id."
  },
  {
   "property": "C17",
   "status": "proved",
   "theorems": [
    "Verif.Props.PeerBook.c17_partition",
    "Verif.Props.PeerBook.c17_online_leader",
    "Verif.Props.PeerBook.c17_count_bounded",
    "Verif.Props.PeerBook.c17_online_leaderless",
    "Verif.Props.PeerBook.c17_coordination_status"
   ],
   "note": ""
  },
  {
   "property": "C18",
   "status": "proved",
   "theorems": [
    "Verif.Props.PeerBook.c18_formed_exactly_at_threshold",
    "Verif.Props.PeerBook.c18_formed_once",
    "Verif.Props.PeerBook.c18_leaderless_new_peer"
   ],
   "note": ""
  },
  {
   "property": "C19",
   "status": "proved",
   "theorems": [
    "Verif.Props.Join.c19_leader_verdict",
    "Verif.Props.Join.c19_success_list"
   ],
   "note": "The schedule includes messages of other ids, other joins, repeated and stranger requests; self-addressed messages do not matter."
  },
  {
   "property": "C20",
   "status": "partial",
   "theorems": [
    "Verif.Props.Join.c20_leader_never_blocks",
    "Verif.Props.Join.c20_leaderless_never_blocks",
    "Verif.Props.Join.c20_member_blocks",
    "Verif.Props.Join.c20_member_blocked_forever"
   ],
   "note": "Proved for the leader and for the leaderless protocol; false for a member: c20_member_blocks and c20_member_blocked_forever."
  },
  {
   "property": "C21",
   "status": "partial",
   "theorems": [
    "Verif.Props.Join.c21_member_outcome_partial",
    "Verif.Props.Join.c21_single_answer_partial",
    "Verif.Props.Join.c21_silence",
    "Verif.Props.Join.c21_not_ready",
    "Verif.Props.Join.c21_mixed_answers"
   ],
   "note": "False as stated, because the answer is read three times (c21_mixed_answers); proved for a leader that gives one answer, and the full outcome table for every schedule."
  },
  {
   "property": "C22",
   "status": "partial",
   "theorems": [
    "Verif.Props.Join.c22_signature_reported_as_leader_failure",
    "Verif.Props.Join.c22_signature_reported_partial",
    "Verif.Props.Join.c22_leader_signature"
   ],
   "note": "False: c22_signature_reported_as_leader_failure; holds once the leader has answered, and for the leader itself."
  },
  {
   "property": "C23",
   "status": "proved",
   "theorems": [
    "Verif.Props.Join.c23_leaderless_verdict",
    "Verif.Props.Join.c23_repeated_peer_times_out"
   ],
   "note": "For a committee without repetitions that contains the local node; c23_repeated_peer_times_out shows the former is needed."
  },
  {
   "property": "C24",
   "status": "partial",
   "theorems": [
    "Verif.Props.Join.c24_leaderless_forgets_partial",
    "Verif.Props.Join.c24_leader_group_leaks",
    "Verif.Props.Join.c24_member_group_leaks"
   ],
   "note": "Proved for the leaderless protocol; false for leader and member, for every history."
  },
  {
   "property": "C25",
   "status": "proved",
   "theorems": [
    "Verif.Props.Session.c25_applied_signed"
   ],
   "note": "every share handed to the local party comes from a received wire message whose payload and session id verify under the key of the member named as its sender"
  },
  {
   "property": "C26",
   "status": "partial",
   "theorems": [
    "Verif.Props.Session.c26_quorum_partial",
    "Verif.Props.Session.c26_unicast_wrapping"
   ],
   "note": "holds for shares carried by wire messages marked broadcast (c26_quorum_partial); c26_unicast_wrapping proves the whole property false: the routing flag is neither signed nor compared with the share type"
  },
  {
   "property": "C27",
   "status": "partial",
   "theorems": [
    "Verif.Props.Session.c27_one_vote_each_partial",
    "Verif.Props.Session.c27_repeat_ignored_partial",
    "Verif.Props.Session.c27_first_vote_kept_partial",
    "Verif.Props.Session.c27_repeat_after_apply"
   ],
   "note": "per cache item at most one vote of each peer counts and repeats are ignored while the item is cached; c27_repeat_after_apply proves that after the share is applied a repeated confirmation starts a new item"
  },
  {
   "property": "C28",
   "status": "proved",
   "theorems": [
    "Verif.Props.Session.c28_confirmation",
    "Verif.Props.Session.c28_arrival",
    "Verif.Props.Session.c28_owner_vote_never_used"
   ],
   "note": "the effect of a confirmation and of an arriving broadcast: nothing is applied below the threshold, and votes of the owner of a message are removed instead of being used"
  },
  {
   "property": "C29",
   "status": "partial",
   "theorems": [
    "Verif.Props.Session.c29_reason_partial",
    "Verif.Props.Session.c29_unanimous",
    "Verif.Props.Session.c29_self_blame"
   ],
   "note": "a hash-check blame has one of the stated reasons; c29_self_blame proves that the local node can blame itself when its own broadcast is replayed to it"
  },
  {
   "property": "C30",
   "status": "partial",
   "theorems": [
    "Verif.Props.Session.c30_agreement_partial",
    "Verif.Props.Session.c30_two_shares"
   ],
   "note": "agreement of two nodes when 2(t-1) > (n-1)+f and the digests of the two messages do not collide (C145: for the real SHA-256); c30_two_shares proves that without this condition two honest nodes can apply different payloads of one broadcaster"
  },
  {
   "property": "C31",
   "status": "proved",
   "theorems": [
    "Verif.Props.SessionMore.c31_no_double_close",
    "Verif.Props.SessionMore.c31_closed_iff"
   ],
   "note": "for committees of at least two members; no history closes the channel twice"
  },
  {
   "property": "C32",
   "status": "proved",
   "theorems": [
    "Verif.Props.SessionMore.c32_request",
    "Verif.Props.SessionMore.c32_stored_share",
    "Verif.Props.SessionMore.c32_malformed"
   ],
   "note": "the answer to a share request goes to the requester only and holds the stored message of that key; malformed requests have no effect"
  },
  {
   "property": "C33",
   "status": "partial",
   "theorems": [
    "Verif.Props.SessionMore.c33_once_partial",
    "Verif.Props.SessionMore.c33_repeat_in_bulk",
    "Verif.Props.SessionMore.c33_leftover_worker"
   ],
   "note": "holds when no bulk message repeats a slot and no worker of an aborted bulk message is left; c33_repeat_in_bulk and c33_leftover_worker prove both conditions necessary"
  },
  {
   "property": "C34",
   "status": "partial",
   "theorems": [
    "Verif.Props.SessionMore.c34_attribution_partial",
    "Verif.Props.SessionMore.c34_impersonation"
   ],
   "note": "holds for payloads whose shares name their signer; c34_impersonation proves the whole property false: the party named in a share is not compared with the signer of the payload"
  },
  {
   "property": "C35",
   "status": "partial",
   "theorems": [
    "Verif.Props.SessionMore.c35_no_crash_partial",
    "Verif.Props.SessionMore.c35_hollow_sender",
    "Verif.Props.SessionMore.c35_nil_routing"
   ],
   "note": "no crash unless some routing has no readable sender; c35_hollow_sender (unsigned message) and c35_nil_routing (signed payload) prove the whole property false"
  },
  {
   "property": "C36",
   "status": "partial",
   "theorems": [
    "Verif.Props.SessionMore.c36_silenced_partial",
    "Verif.Props.SessionMore.c36_waiting_share",
    "Verif.Props.SessionMore.c36_copied_culprit"
   ],
   "note": "holds for culprits reported by the session party object with no waiting share; c36_waiting_share and c36_copied_culprit prove both conditions necessary"
  },
  {
   "property": "C37",
   "status": "proved",
   "theorems": [
    "Verif.Props.Outgoing.c37_batching",
    "Verif.Props.Outgoing.c37_failed_send_loses_queue"
   ],
   "note": "Any output sequence, batch size and visiting order, provided encoding and signing of a bulk message succeed; the provision is shown to be needed."
  },
  {
   "property": "C38",
   "status": "proved",
   "theorems": [
    "Verif.Props.Timeouts.c38_absent_blamed",
    "Verif.Props.Timeouts.c38_fails_iff"
   ],
   "note": "Request lists of any length; exact failure condition."
  },
  {
   "property": "C39",
   "status": "proved",
   "theorems": [
    "Verif.Props.Timeouts.c39_lists_split",
    "Verif.Props.Timeouts.c39_repeated_peer"
   ],
   "note": "For party maps built by the set-up (one peer per member, c39_repeated_peer shows what goes wrong otherwise)."
  },
  {
   "property": "C40",
   "status": "partial",
   "theorems": [
    "Verif.Props.Timeouts.c40_broadcast_blame",
    "Verif.Props.Timeouts.c40_heard_history",
    "Verif.Props.Timeouts.c40_all_silent_nobody_blamed"
   ],
   "note": "Proved whenever at least one message of the stuck round was accepted; if none was, nobody is blamed (c40_all_silent_nobody_blamed)."
  },
  {
   "property": "C41",
   "status": "proved",
   "theorems": [
    "Verif.Props.Timeouts.c41_unicast_blame",
    "Verif.Props.Timeouts.c41_unicast_no_record"
   ],
   "note": "For every history of deliveries of the round, any iteration order."
  },
  {
   "property": "C42",
   "status": "partial",
   "theorems": [
    "Verif.Props.Shares.c42_single_message_partial",
    "Verif.Props.Shares.c42_blamed_missed_partial",
    "Verif.Props.Shares.c42_overlooks_culprit",
    "Verif.Props.Shares.c42_order_dependent",
    "Verif.Props.Shares.c42_complete_blames_all",
    "Verif.Props.Shares.c42_foreign_round_panics"
   ],
   "note": "Proved for a session with one message, soundness for several; completeness for several messages, a complete session and a foreign round number are refuted by c42_overlooks_culprit, c42_complete_blames_all, c42_foreign_round_panics."
  },
  {
   "property": "C43",
   "status": "proved",
   "theorems": [
    "Verif.Props.Shares.c43_add_blame_nodes",
    "Verif.Props.Shares.c43_setblame_repeats",
    "Verif.Props.Shares.c43_already_blame"
   ],
   "note": "For AddBlameNodes; c43_setblame_repeats shows that SetBlame, in contrast, repeats nodes."
  },
  {
   "property": "C44",
   "status": "proved",
   "theorems": [
    "Verif.Props.Session.c44_hash_check",
    "Verif.Props.SessionMore.c44_culprits",
    "Verif.Props.Shares.c44_wrong_share_owner"
   ],
   "note": "the policy, the blame after a failed hash check, and the blame of reported culprits, with evidence, for every history"
  },
  {
   "property": "C45",
   "status": "proved",
   "theorems": [
    "Verif.Props.Timeouts.c45_broadcast",
    "Verif.Props.Timeouts.c45_unicast",
    "Verif.Props.Timeouts.c45_node_sync"
   ],
   "note": "Node sync of an online local node, broadcast, unicast, any iteration order."
  },
  {
   "property": "C46",
   "status": "proved",
   "theorems": [
    "Verif.Props.Signing.c46_signature_of_each_message",
    "Verif.Props.Signing.c46_every_entry_valid"
   ],
   "note": "All completion orders, via the algorithm of sort.SliceStable (the comparison passed is not strict, so its documentation promises nothing). tss-lib parties are a parameter: party i delivers at most one result, whose M is the number it was asked to sign."
  },
  {
   "property": "C47",
   "status": "partial",
   "theorems": [
    "Verif.Props.Notified.c47_verified_partial",
    "Verif.Props.Notified.c47_fewer_signatures",
    "Verif.Props.Notified.c47_recovery_unchecked"
   ],
   "note": "the signatures delivered are verified against their own messages in order; false that every message received one (c47_fewer_signatures); the recovery id is not verified (c47_recovery_unchecked)"
  },
  {
   "property": "C48",
   "status": "proved",
   "theorems": [
    "Verif.Props.Notified.c48_once",
    "Verif.Props.Notified.c48_useless",
    "Verif.Props.Notified.c48_unregistered",
    "Verif.Props.Notified.c48_never_blocks"
   ],
   "note": "at most one result, stable for ever; useless notifications change nothing; ended waits are not registered; the handler never blocks"
  },
  {
   "property": "C49",
   "status": "partial",
   "theorems": [
    "Verif.Props.KeySigning.c49_decision",
    "Verif.Props.KeySigning.c49_success_iff",
    "Verif.Props.KeySigning.c49_signatures_only_with_success",
    "Verif.Props.KeySigning.c49_generated",
    "Verif.Props.KeySigning.c49_neither"
   ],
   "note": "The decision table is proved for every interleaving of the two goroutines, of the join, the session and the notifier. The literal claim misses one case, proved as c49_neither: a node outside of the party that receives nothing answers neither Success nor Fail, with a nil error. Signatures come only with Success and a nil error."
  },
  {
   "property": "C50",
   "status": "proved",
   "theorems": [
    "Verif.Props.KeySigning.c50_at_most_two",
    "Verif.Props.KeySigning.c50_own_channel",
    "Verif.Props.KeySigning.c50_sends_succeed",
    "Verif.Props.KeySigning.c50_no_panic",
    "Verif.Props.KeySigning.c50_closed_once"
   ],
   "note": "For every interleaving; the hypotheses say that the notifier has not crashed and that the request is in order (otherwise the channel is never used)."
  },
  {
   "property": "C51",
   "status": "partial",
   "theorems": [
    "Verif.Props.KeySigning.c51_effects_need_acceptance",
    "Verif.Props.KeySigning.c51_refuses",
    "Verif.Props.KeySigning.c51_session_partial",
    "Verif.Props.KeySigning.c51_not_a_signer",
    "Verif.Props.KeySigning.c51_too_few",
    "Verif.Props.KeySigning.c51_stranger"
   ],
   "note": "Refusal is proved for every request (c51_refuses, c51_effects_need_acceptance). Missing: with a leader the number of signers of the request is not checked, and a node that does not lead believes the list of the leader: c51_too_few and c51_stranger show runs with too few signers and with a node without share."
  },
  {
   "property": "C52",
   "status": "proved",
   "theorems": [
    "Verif.Props.KeyGeneration.c52_success_is_stored",
    "Verif.Props.KeyGeneration.c52_no_key_without_success",
    "Verif.Props.KeyGeneration.c52_final",
    "Verif.Props.KeyGeneration.c52_write_failure"
   ],
   "note": "For every request, every execution and every fault of the storage: a Success answer names a key whose share is on the disk with the members of the request (c52_success_is_stored), any other answer names no key, an answer is final and a failed write gives an error."
  },
  {
   "property": "C53",
   "status": "partial",
   "theorems": [
    "Verif.Props.KeySigning.c53_keysign_fail",
    "Verif.Props.KeySigning.c53_keysign_absent",
    "Verif.Props.KeySigning.c53_keysign_leader_blamed",
    "Verif.Props.KeySigning.c53_keysign_leader_blames_itself",
    "Verif.Props.KeyGeneration.c53_keygen_fail",
    "Verif.Props.KeyGeneration.c53_keygen_absent",
    "Verif.Props.KeyGeneration.c53_keygen_leader_blamed",
    "Verif.Props.KeyGeneration.c53_keygen_leader_blames_itself"
   ],
   "note": "Keygen and KeySign: the answer is Fail without key or signatures and the blame is described case by case (c53_keygen_fail, FailReason); without leader exactly the absent members are blamed (c53_keygen_absent, c53_keysign_absent). With a leader the claim is false: the leader is blamed although it answered, and a leader blames itself (c53_keygen_leader_blamed, c53_keygen_leader_blames_itself and their keysign versions)."
  },
  {
   "property": "C54",
   "status": "proved",
   "theorems": [
    "Verif.Props.Storage.c54_independence",
    "Verif.Props.Storage.c54_read_back",
    "Verif.Props.Storage.c54_success_is_stored"
   ],
   "note": "All histories with failing and interrupted writes of other keys. JSON round trip and the bech32 shape of accepted keys are stated hypotheses."
  },
  {
   "property": "C55",
   "status": "partial",
   "theorems": [
    "Verif.Props.Storage.c55_crash_partial",
    "Verif.Props.Storage.c55_crash_loses_share"
   ],
   "note": "False of the code: the file is truncated and rewritten in place (c55_crash_loses_share). The part that holds: other keys are untouched, and the key itself unless the crash falls between truncation and the last byte."
  },
  {
   "property": "C56",
   "status": "proved",
   "theorems": [
    "Verif.Props.Storage.c56_file_names"
   ],
   "note": ""
  },
  {
   "property": "C57",
   "status": "partial",
   "theorems": [
    "Verif.Props.Storage.c57_round_trip_partial",
    "Verif.Props.Storage.c57_read_iff",
    "Verif.Props.Storage.c57_damaged_refused",
    "Verif.Props.Storage.c57_loopback_by_text"
   ],
   "note": "everything about round trips is proved (c57_round_trip_partial, c57_read_iff, c57_damaged_refused); missing: the filter of loopback addresses is a text test and is wrong both ways (c57_loopback_by_text)"
  },
  {
   "property": "C58",
   "status": "partial",
   "theorems": [
    "Verif.Props.Recovery.c58_reconstruct",
    "Verif.Props.Recovery.c58_duplicates",
    "Verif.Props.Recovery.c58_tool_partial",
    "Verif.Props.Recovery.c58_pool_size",
    "Verif.Props.Recovery.c58_wrong_for_larger_pools",
    "Verif.Props.Recovery.c58_three_shares_do_not_suffice",
    "Verif.Props.Recovery.c58_needs_three_files",
    "Verif.Props.Recovery.c58_unreadable",
    "Verif.Props.Recovery.c58_wrong_key"
   ],
   "note": "the interpolation is proved for every prime order, polynomial and set of t+1 or more distinct shares, and the tool is correct for pools of at most four members with at least three files; it is false of the tool for pools of five or six members (c58_wrong_for_larger_pools, c58_wrong_key) and it crashes with fewer than three files (c58_needs_three_files)"
  },
  {
   "property": "C59",
   "status": "partial",
   "theorems": [
    "Verif.Props.Recovery.c59_flag_ignored",
    "Verif.Props.Recovery.c59_uses_three_partial"
   ],
   "note": "false: the flag has no effect (c59_flag_ignored); with the default 3 the first three files are used"
  },
  {
   "property": "C60",
   "status": "proved",
   "theorems": [
    "Verif.Props.Recovery.c60_round_trip",
    "Verif.Props.Recovery.c60_injective",
    "Verif.Props.Recovery.c60_counter",
    "Verif.Props.Recovery.c60_blocks",
    "Verif.Props.Recovery.c60_works",
    "Verif.Props.Recovery.c60_export_works",
    "Verif.Props.Recovery.c60_export_opens",
    "Verif.Props.Recovery.c60_exported_key"
   ],
   "note": "AES, scrypt and keccak are parameters; the counter mode, the layout of the key file and its use are modelled"
  },
  {
   "property": "C61",
   "status": "partial",
   "theorems": [
    "Verif.Props.Http.c61_ping",
    "Verif.Props.Http.c61_p2pid",
    "Verif.Props.Http.c61_wrong_method",
    "Verif.Props.Http.c61_unknown_path",
    "Verif.Props.Http.c61_bad_body",
    "Verif.Props.Http.c61_keygen_called",
    "Verif.Props.Http.c61_keysign_called",
    "Verif.Props.Http.c61_one_call",
    "Verif.Props.Http.c61_keygen_reply",
    "Verif.Props.Http.c61_keysign_reply",
    "Verif.Props.Http.c61_status",
    "Verif.Props.Http.c61_accepted_partial",
    "Verif.Props.Http.c61_refused_partial",
    "Verif.Props.Http.c61_keygen_partial",
    "Verif.Props.Http.c61_failed_keysign",
    "Verif.Props.Http.c61_failed_keygen"
   ],
   "note": "405, 404 and 400 without calling the server, 200 with the JSON, at most one call: proved for all requests; \"a failed keysign is 500\" is false: only a returned error is (c61_failed_keysign), and a Keygen error is answered 200 (c61_failed_keygen)"
  },
  {
   "property": "C62",
   "status": "proved",
   "theorems": [
    "Verif.Props.Counting.c62_counters",
    "Verif.Props.Counting.c62_labels",
    "Verif.Props.Counting.c62_gauges",
    "Verif.Props.Counting.c62_keygen_calls",
    "Verif.Props.Counting.c62_keysign_calls",
    "Verif.Props.Counting.c62_refused_not_counted"
   ],
   "note": "for all update histories; composed with the Keygen and KeySign models for all sets of (concurrent) calls; refused requests are not counted (c62_refused_not_counted); the join counter of KeySign is not composed"
  },
  {
   "property": "C63",
   "status": "partial",
   "theorems": [
    "Verif.Props.Timing.c63_sign_partial",
    "Verif.Props.Timing.c63_sign_silent",
    "Verif.Props.Timing.c63_sign_not_early",
    "Verif.Props.Timing.c63_keygen_partial",
    "Verif.Props.Timing.c63_keygen_not_early",
    "Verif.Props.Timing.c63_sign_unbounded",
    "Verif.Props.Timing.c63_keygen_unbounded"
   ],
   "note": "false: the idle timer is re-armed by every message the local party sends (c63_sign_unbounded, c63_keygen_unbounded); what holds is a bound of (signatures + messages sent) times the configured time"
  },
  {
   "property": "C64",
   "status": "partial",
   "theorems": [
    "Verif.Props.Startup.c64_verdict_partial",
    "Verif.Props.Startup.c64_malformed"
   ],
   "note": "holds for addresses with a peer id; one configured address without a peer id makes connecting fail (c64_malformed)"
  },
  {
   "property": "C65",
   "status": "proved",
   "theorems": [
    "Verif.Props.Rounds.c65_known",
    "Verif.Props.Rounds.c65_slot",
    "Verif.Props.Rounds.c65_distinct",
    "Verif.Props.Rounds.c65_unicast",
    "Verif.Props.Rounds.c65_unicast_keygen_exact",
    "Verif.Props.Rounds.c65_unicast_keysign",
    "Verif.Props.Rounds.c65_unicast_keysign_inexact"
   ],
   "note": "for all message types and all bytes; c65_unicast_keysign_inexact records that one further slot of signing is marked as unicast"
  },
  {
   "property": "C66",
   "status": "proved",
   "theorems": [
    "Verif.Props.Rounds.c66_maximum"
   ],
   "note": "for every vote set and every visiting order"
  },
  {
   "property": "C67",
   "status": "partial",
   "theorems": [
    "Verif.Props.Framing.c67_second_frame_lost",
    "Verif.Props.Framing.c67_aligned_frames_partial"
   ],
   "note": "False: c67_second_frame_lost; holds when each frame arrives in chunks of its own."
  },
  {
   "property": "C68",
   "status": "partial",
   "theorems": [
    "Verif.Props.StreamRelease.c68_racing_stream_lost",
    "Verif.Props.StreamRelease.c68_other_session_safe_partial"
   ],
   "note": "False for the same session: c68_racing_stream_lost; holds for other sessions."
  },
  {
   "property": "C69",
   "status": "partial",
   "theorems": [
    "Verif.Props.Join.c69_leaderless_waits_for_timeout",
    "Verif.Props.Join.c69_request_wakes_partial"
   ],
   "note": "False for every history in which the peers use the leaderless protocol; only a stray request of the other protocol wakes the call."
  },
  {
   "property": "C70",
   "status": "partial",
   "theorems": [
    "Verif.Props.SessionMore.c70_members_partial",
    "Verif.Props.SessionMore.c70_outsiders"
   ],
   "note": "holds when only members send confirmations; c70_outsiders proves the whole property false: the sender of a confirmation or a completion report is not looked up in the committee"
  },
  {
   "property": "C71",
   "status": "proved",
   "theorems": [
    "Verif.Props.SessionMore.c71_evidence"
   ],
   "note": "for every history and worker schedule, starting from an empty blame and an empty message store"
  },
  {
   "property": "C72",
   "status": "proved",
   "theorems": [
    "Verif.Props.Sent.c72_sent"
   ],
   "note": "Stated for every history and worker schedule, over the sequence of messages the session has sent; the task-done message, the outgoing protocol messages (C37) are sent elsewhere."
  },
  {
   "property": "C73",
   "status": "partial",
   "theorems": [
    "Verif.Props.Sent.c73_unsolicited",
    "Verif.Props.Sent.c73_once_partial",
    "Verif.Props.Sent.c73_odd_answer"
   ],
   "note": "Unsolicited answers: proved. Repeated answers: proved for histories in which no answer names a message type that no request ever names; c73_odd_answer shows that with such an answer the claim is false."
  },
  {
   "property": "C74",
   "status": "partial",
   "theorems": [
    "Verif.Props.Notified.c74_served_partial",
    "Verif.Props.Notified.c74_lost_registration"
   ],
   "note": "holds if all waits so far were for different message ids; false otherwise (c74_lost_registration)"
  },
  {
   "property": "C75",
   "status": "partial",
   "theorems": [
    "Verif.Props.Notified.c75_crash_iff_partial",
    "Verif.Props.Notified.c75_crash"
   ],
   "note": "false as stated (c75_crash); the exact condition under which a notification crashes the node is proved"
  },
  {
   "property": "C76",
   "status": "partial",
   "theorems": [
    "Verif.Props.KeySigning.c76_crash_causes_partial",
    "Verif.Props.KeySigning.c76_no_messages"
   ],
   "note": "False as stated (c76_no_messages: a request without messages). The possible causes of a crash are characterised."
  },
  {
   "property": "C77",
   "status": "partial",
   "theorems": [
    "Verif.Props.KeySigning.c77_complete_partial",
    "Verif.Props.KeySigning.c77_incomplete"
   ],
   "note": "Proved when the signatures were generated by this node; false for received ones (c77_incomplete)."
  },
  {
   "property": "C78",
   "status": "partial",
   "theorems": [
    "Verif.Props.KeyGeneration.c78_delivered_partial",
    "Verif.Props.KeyGeneration.c78_told_but_not_stored"
   ],
   "note": "False as stated: the notice is sent before the share is written (c78_told_but_not_stored). Proved: it is sent only after the local party delivered its share."
  },
  {
   "property": "C79",
   "status": "proved",
   "theorems": [
    "Verif.Props.KeyGeneration.c79_key_is_usable"
   ],
   "note": "The hypotheses on the signing request are exactly its own faults (messages, empty request, version, number of signers)."
  },
  {
   "property": "C80",
   "status": "proved",
   "theorems": [
    "Verif.Props.KeyGeneration.c80_counted_once",
    "Verif.Props.KeyGeneration.c80_join_counted",
    "Verif.Props.KeyGeneration.c80_silent_failure_counted"
   ],
   "note": "For keys that are canonical (no leading zero byte). Without this hypothesis the call can fail silently and count as a success: c80_silent_failure_counted."
  },
  {
   "property": "C81",
   "status": "proved",
   "theorems": [
    "Verif.Props.KeyGeneration.c81_other_keys"
   ],
   "note": "For every history with any faults of the storage; other keys are those that are not the pool key of a share delivered in the history."
  },
  {
   "property": "C82",
   "status": "partial",
   "theorems": [
    "Verif.Props.KeyGeneration.c82_crash_causes_partial"
   ],
   "note": "Proved: the call itself never panics, before, between or after the session; a crash comes from the session (C31-C36 and C70 describe those)."
  },
  {
   "property": "C83",
   "status": "partial",
   "theorems": [
    "Verif.Props.Recovery.c83_written_iff",
    "Verif.Props.Recovery.c83_contains_key_partial",
    "Verif.Props.Recovery.c83_null_written"
   ],
   "note": "written exactly on request; the file contains an encrypted key if the random source works, and \"null\" otherwise (c83_null_written)"
  },
  {
   "property": "C84",
   "status": "proved",
   "theorems": [
    "Verif.Props.Startup.c84_starts_iff",
    "Verif.Props.Startup.c84_no_panic",
    "Verif.Props.Startup.c84_attempts"
   ],
   "note": "host creation, the DHT and the ping are outcomes chosen by the environment"
  },
  {
   "property": "C85",
   "status": "partial",
   "theorems": [
    "Verif.Props.Startup.c85_command_line",
    "Verif.Props.Startup.c85_saved_peers",
    "Verif.Props.Startup.c85_unreadable",
    "Verif.Props.Startup.c85_no_home",
    "Verif.Props.Startup.c85_damaged_book"
   ],
   "note": "false for a damaged address book: it is read as a list of addresses that are not usable and keeps the node from starting (c85_damaged_book), and without a home folder, where nothing is saved (c85_no_home)"
  },
  {
   "property": "C86",
   "status": "partial",
   "theorems": [
    "Verif.Props.Startup.c86_stop_partial",
    "Verif.Props.Startup.c86_stop_twice"
   ],
   "note": "a started node can be stopped; a second stop panics (c86_stop_twice)"
  },
  {
   "property": "C87",
   "status": "partial",
   "theorems": [
    "Verif.Props.Network.c87_only_addressed",
    "Verif.Props.Network.c87_at_most_once",
    "Verif.Props.Network.c87_exactly_once",
    "Verif.Props.Network.c87_accepted",
    "Verif.Props.Network.c87_whole",
    "Verif.Props.Network.c87_progress",
    "Verif.Props.Network.c87_stop_loses",
    "Verif.Props.Network.c87_loop_ends"
   ],
   "note": "Proved for every history: streams are opened only to addressed peers, never to the node itself, with the frame of that message or a beginning of it; at most once per entry; exactly once when nothing waits; from every state of a running node the loop and the writers can bring everything out. c87_stop_loses: what waits in the queue when the node is stopped is lost."
  },
  {
   "property": "C88",
   "status": "proved",
   "theorems": [
    "Verif.Props.Network.c88_conserved",
    "Verif.Props.Network.c88_received",
    "Verif.Props.Network.c88_capacity",
    "Verif.Props.Network.c88_in_order"
   ],
   "note": "Whole histories with subscriptions, incoming streams, blocked handlers and bounded channels; conservation of messages and their origin."
  },
  {
   "property": "C89",
   "status": "proved",
   "theorems": [
    "Verif.Props.Network.c89_at_most_once",
    "Verif.Props.Network.c89_authentic",
    "Verif.Props.Network.c89_same_session",
    "Verif.Props.Network.c89_delivered"
   ],
   "note": "A network of any number of honest nodes and arbitrary foreign nodes; the transport may cut, delay, reorder and truncate but not alter. Assumes encodings below 4 GiB."
  },
  {
   "property": "C90",
   "status": "proved",
   "theorems": [
    "Verif.Props.Network.c90_outgoing_reset",
    "Verif.Props.Network.c90_incoming_reset",
    "Verif.Props.Network.c90_only_released",
    "Verif.Props.Network.c90_foreign_id_never_reset"
   ],
   "note": "Both directions of streams in every history; c90_foreign_id_never_reset states a weakness: ids nobody releases."
  },
  {
   "property": "C91",
   "status": "partial",
   "theorems": [
    "Verif.Props.Network.c91_blocked",
    "Verif.Props.Network.c91_unblocked_partial"
   ],
   "note": "False in general: c91_blocked gives the number of handlers that stay for ever once a session takes nothing more; c91_unblocked_partial is the part that holds."
  },
  {
   "property": "C92",
   "status": "partial",
   "theorems": [
    "Verif.Props.TimeoutVerdict.c92_keygen",
    "Verif.Props.TimeoutVerdict.c92_keygen_nothing_sent",
    "Verif.Props.TimeoutVerdict.c92_keysign",
    "Verif.Props.TimeoutVerdict.c92_missing_partial",
    "Verif.Props.TimeoutVerdict.c92_keysign_run",
    "Verif.Props.TimeoutVerdict.c92_keygen_run"
   ],
   "note": "Full verdict when there is evidence of silence (manager level for both protocols, and for the timeout event of whole signing and key-generation runs, with unicast silence in terms of the received events); the fallback to missing shares is proved for sessions with a single message (c92_missing_partial), since with several messages it misjudges (C42)."
  },
  {
   "property": "C93",
   "status": "proved",
   "theorems": [
    "Verif.Props.TimeoutVerdict.c93_keygen_told",
    "Verif.Props.TimeoutVerdict.c93_keysign_told"
   ],
   "note": "Exact in both directions for both loops; for key generation the peers are told before the share is stored."
  },
  {
   "property": "C94",
   "status": "proved",
   "theorems": [
    "Verif.Props.SetUp.c94_others_count",
    "Verif.Props.SetUp.c94_keygen",
    "Verif.Props.SetUp.c94_keysign",
    "Verif.Props.SetUp.c94_keygen_starts",
    "Verif.Props.SetUp.c94_keysign_party",
    "Verif.Props.SetUp.c94_keygen_timeout",
    "Verif.Props.SetUp.c94_keysign_timeout",
    "Verif.Props.SetUp.c94_repeated_peer",
    "Verif.Props.SetUp.c94_repeated_peer_accepted"
   ],
   "note": "for parties of distinct canonical keys; c94_repeated_peer shows what happens if the leader lists a peer twice (accepted, two members with one peer id)"
  },
  {
   "property": "C95",
   "status": "proved",
   "theorems": [
    "Verif.Props.Announced.c95_at_most_one",
    "Verif.Props.Announced.c95_told",
    "Verif.Props.Announced.c95_final",
    "Verif.Props.Announced.c95_untold",
    "Verif.Props.Announced.c95_failure_told_though_received"
   ],
   "note": "c95_told gives the announcement for each answer, c95_untold and c95_failure_told_though_received show the exceptions"
  },
  {
   "property": "C96",
   "status": "proved",
   "theorems": [
    "Verif.Props.Announced.c96_recipients",
    "Verif.Props.Announced.c96_once",
    "Verif.Props.Announced.c96_failure_harmless",
    "Verif.Props.Announced.c96_delivered"
   ],
   "note": "encoding lawful (RoundTrip) and delivery of the notice are hypotheses; the signatures produced are assumed valid (the signing algorithm is not modelled)"
  },
  {
   "property": "C97",
   "status": "proved",
   "theorems": [
    "Verif.Props.Parties.c97_agreement",
    "Verif.Props.Parties.c97_same",
    "Verif.Props.Parties.c97_party",
    "Verif.Props.Parties.c97_one_sided"
   ],
   "note": "networks of nodes (Model/JoinNet.lean): honest nodes run the modelled code, others send anything; c97_one_sided shows what is not claimed"
  },
  {
   "property": "C98",
   "status": "proved",
   "theorems": [
    "Verif.Props.Parties.c98_leader",
    "Verif.Props.Parties.c98_member"
   ],
   "note": "reading in time means: the whole frame is delivered while the call has not returned"
  },
  {
   "property": "C99",
   "status": "proved",
   "theorems": [
    "Verif.Props.Parties.c99_everybody",
    "Verif.Props.Parties.c99_nobody_missing",
    "Verif.Props.Parties.c99_one_sided"
   ],
   "note": "c99_one_sided shows what is not claimed"
  },
  {
   "property": "C100",
   "status": "proved",
   "theorems": [
    "Verif.Props.Parties.c100_with_leader",
    "Verif.Props.Parties.c100_without_leader",
    "Verif.Props.Parties.c100_verdict_once",
    "Verif.Props.Parties.c100_member_stops"
   ],
   "note": "how often the leaderless call repeats its request is not modelled"
  },
  {
   "property": "C101",
   "status": "proved",
   "theorems": [
    "Verif.Props.Parties.c101_incoming_reset",
    "Verif.Props.Parties.c101_outgoing_reset",
    "Verif.Props.Parties.c101_only"
   ],
   "note": "for releases that no other call of the stream manager interrupts (see C68)"
  },
  {
   "property": "C102",
   "status": "proved",
   "theorems": [
    "Verif.Props.SessionNet.c102_authentic"
   ],
   "note": "unforgeability of signatures is a hypothesis; the sender meant is the one named and authenticated by the wire message (C34 for the one named inside)"
  },
  {
   "property": "C103",
   "status": "proved",
   "theorems": [
    "Verif.Props.SessionNet.c103_fault_free"
   ],
   "note": "what the local parties produce and accept is a hypothesis about tss-lib, stated in Spec/SessNet.lean"
  },
  {
   "property": "C104",
   "status": "proved",
   "theorems": [
    "Verif.Props.SessionNet.c104_exchange_ends"
   ],
   "note": "as C103"
  },
  {
   "property": "C105",
   "status": "proved",
   "theorems": [
    "Verif.Props.SessionNet.c105_task_done"
   ],
   "note": "as C103; with outsiders, whose reports would count, see C31"
  },
  {
   "property": "C106",
   "status": "partial",
   "theorems": [
    "Verif.Props.SessionNet.c106_addressee_partial",
    "Verif.Props.SessionNet.c106_forwarded"
   ],
   "note": "false as stated: c106_forwarded shows a share passed on by its receiver being handed to another member; holds without dishonest nodes (c106_addressee_partial)"
  },
  {
   "property": "C107",
   "status": "proved",
   "theorems": [
    "Verif.Props.KeyGeneration.c107_session_error",
    "Verif.Props.KeyGeneration.c107_error_names_reason"
   ],
   "note": "the session statement is an equivalence; a timeout whose evaluation panics (C42) is excluded by the statement"
  },
  {
   "property": "C108",
   "status": "partial",
   "theorems": [
    "Verif.Props.SessionCall.c108_in_order",
    "Verif.Props.SessionCall.c108_keygen_partial",
    "Verif.Props.SessionCall.c108_keysign_partial",
    "Verif.Props.SessionCall.c108_keygen_lost_for_good",
    "Verif.Props.SessionCall.c108_keysign_lost_for_good",
    "Verif.Props.SessionCall.c108_message_lost",
    "Verif.Props.SessionCall.c108_not_always_sent"
   ],
   "note": "false: the select of the loop may take the result of a local party while its last messages are still in the channel, and the session ends with success without sending them (c108_message_lost, c108_not_always_sent). Proved: messages are processed in order, each at most once; what is in the channel when the loop returns is never sent; when the channel is empty everything was sent (sends succeeding, regular outputs)."
  },
  {
   "property": "C109",
   "status": "proved",
   "theorems": [
    "Verif.Props.SessionCall.c109_keygen_loop",
    "Verif.Props.SessionCall.c109_keysign_loop",
    "Verif.Props.SessionCall.c109_keygen",
    "Verif.Props.SessionCall.c109_keysign",
    "Verif.Props.SessionCall.c109_keygen_goes_on",
    "Verif.Props.SessionCall.c109_keysign_goes_on",
    "Verif.Props.SessionCall.c109_keygen_start",
    "Verif.Props.SessionCall.c109_keysign_start",
    "Verif.Props.SessionCall.c109_keygen_stops",
    "Verif.Props.SessionCall.c109_keysign_stops",
    "Verif.Props.SessionCall.c109_keygen_result",
    "Verif.Props.SessionCall.c109_keysign_result",
    "Verif.Props.SessionCall.c109_after_error"
   ],
   "note": "for both loops; processing an inbound message is one step. Limit c109_after_error: after an error return inbound messages may still be processed."
  },
  {
   "property": "C110",
   "status": "partial",
   "theorems": [
    "Verif.Props.Listening.c110_listening_partial",
    "Verif.Props.Listening.c110_delivered_partial",
    "Verif.Props.Listening.c110_same_request",
    "Verif.Props.Listening.c110_keygen_calls"
   ],
   "note": "false for two concurrent KeySign calls for the same request (c110_same_request); proved when no KeySign call has the id of another running call; Keygen calls never clash with each other because of the lock."
  },
  {
   "property": "C111",
   "status": "partial",
   "theorems": [
    "Verif.Props.JoinTime.c111_member",
    "Verif.Props.JoinTime.c111_leader_partial",
    "Verif.Props.JoinTime.c111_leader_keygen",
    "Verif.Props.JoinTime.c111_leaderless_partial",
    "Verif.Props.JoinTime.c111_leaderless",
    "Verif.Props.JoinTime.c111_leader_returns",
    "Verif.Props.JoinTime.c111_member_returns",
    "Verif.Props.JoinTime.c111_leaderless_returns",
    "Verif.Props.JoinTime.c111_leader_waits_longer",
    "Verif.Props.JoinTime.c111_leaderless_waits_longer"
   ],
   "note": "Proved for a member, for the leader of a key generation and for the leaderless protocol among peers that use it: the wait ends within the configured time and the call then returns. False in general: a leader that gets a notice on its signature channel, and a leaderless call to which a peer sends a request of the protocol with a leader, start the timer anew (witnesses c111_leader_waits_longer and c111_leaderless_waits_longer); the bounds then are one period more for each notice, or for each such peer. The time for opening streams and sending is not modelled."
  },
  {
   "property": "C112",
   "status": "proved",
   "theorems": [
    "Verif.Props.Agreed.c112_keygen",
    "Verif.Props.Agreed.c112_keysign",
    "Verif.Props.Agreed.c112_party",
    "Verif.Props.Agreed.c112_exchange"
   ],
   "note": "The theorems give the hypothesis Setting of C102 to C106 for the sessions as the model of the code sets them up: for key generation, for signing, and for signing by a party formed in a network of nodes with an honest leader (C97). c112_exchange applies C103 to them."
  },
  {
   "property": "C113",
   "status": "proved",
   "theorems": [
    "Verif.Props.Network.c113_silent",
    "Verif.Props.Network.c113_remaining",
    "Verif.Props.Network.c113_returns",
    "Verif.Props.Network.c113_senders_wait",
    "Verif.Props.Network.Demo.c113_queue_fills"
   ],
   "note": "Stop of the p2p layer: it returns when the loop has seen the stop and the running writes have ended (each bounded by its deadlines, which are the transport's); nothing is written after it. Limit shown: a session handing over a message after the stop may wait for ever once the queue of 1024 is full (c113_senders_wait). The closing of the host and the handlers of incoming streams are not waited for and not part of the claim."
  },
  {
   "property": "C114",
   "status": "proved",
   "theorems": [
    "Verif.Props.PoolKeys.c114_key_names_point",
    "Verif.Props.PoolKeys.c114_keys_differ",
    "Verif.Props.PoolKeys.c114_only_points",
    "Verif.Props.PoolKeys.c114_check",
    "Verif.Props.PoolKeys.c114_key_accepted",
    "Verif.Props.PoolKeys.c114_keygen_key",
    "Verif.Props.PoolKeys.c114_keygen_errors"
   ],
   "note": "The curve is concrete (btcec's parsing and compression are written out); the bech32 text is a parameter with the law that decoding inverts encoding."
  },
  {
   "property": "C115",
   "status": "proved",
   "theorems": [
    "Verif.Props.KeyTexts.c115_text_of_key",
    "Verif.Props.KeyTexts.c115_key_of_text",
    "Verif.Props.KeyTexts.c115_same_key",
    "Verif.Props.KeyTexts.c115_canonical",
    "Verif.Props.KeyTexts.c115_codec_lawful",
    "Verif.Props.KeyTexts.c115_peer_of_key",
    "Verif.Props.KeyTexts.c115_storage_good",
    "Verif.Props.KeyTexts.c115_law"
   ],
   "note": "bech32 (btcutil), amino's key prefix, btcec's parsing and libp2p's peer id bytes are written out; other key types and base58 printing are left out. The theorems also discharge what C04, C54-C57, C49-C53 and C114 assume of the encodings."
  },
  {
   "property": "C116",
   "status": "partial",
   "theorems": [
    "Verif.Props.KeyTexts.c116_lower_partial",
    "Verif.Props.KeyTexts.c116_capitals_not_found",
    "Verif.Props.KeyTexts.c116_capitals_not_party"
   ],
   "note": "False: bech32 also accepts a text in capitals, which passes the check of keys but names another file and is not recognised as the own key (c116_capitals_not_found, c116_capitals_not_party). Proved for lower-case texts, the ones the node prints."
  },
  {
   "property": "C117",
   "status": "proved",
   "theorems": [
    "Verif.Props.Locking.c117_someone_moves",
    "Verif.Props.Locking.c117_all_finish",
    "Verif.Props.Locking.c117_can_finish",
    "Verif.Props.Locking.c117_no_wrong_unlock"
   ],
   "note": "Locks inside of libraries are not modelled; what a goroutine does between lock operations (network, channels) is left out, so the theorem is about the locks alone."
  },
  {
   "property": "C118",
   "status": "proved",
   "theorems": [
    "Verif.Props.Locking.c118_maps"
   ],
   "note": "Maps filled before the goroutines that read them start (party maps) are left out; ProcessInboundMessages is one goroutine per session, which the start condition says."
  },
  {
   "property": "C119",
   "status": "partial",
   "theorems": [
    "Verif.Props.Locking.c119_races_partial",
    "Verif.Props.Locking.c119_leader_race",
    "Verif.Props.Locking.c119_blame_race",
    "Verif.Props.Locking.c119_blame_write_race",
    "Verif.Props.Locking.c119_stream_race",
    "Verif.Props.Locking.c119_accepted_race"
   ],
   "note": "False: the leader of a join group, the blame of a session and the spare cells of two kinds of slices are used without lock (five witnesses). c119_races_partial: everything else is free of races."
  },
  {
   "property": "C120",
   "status": "partial",
   "theorems": [
    "Verif.Props.Framed.c120_not_framed_partial",
    "Verif.Props.Framed.c120_returned",
    "Verif.Props.Framed.c120_relabelled",
    "Verif.Props.Framed.c120_forwarded",
    "Verif.Props.Framed.c120_impersonated",
    "Verif.Props.Framed.c120_two_liars"
   ],
   "note": "False of the code: an honest member is blamed when its own broadcast is sent back to it (c120_returned), when its genuine messages are shown to others under another round label (c120_relabelled; the label is not signed), when a share it made for somebody else is passed on (c120_forwarded), when a dishonest member signs a share in its name (c120_impersonated), and when two dishonest peers report other digests (c120_two_liars). c120_not_framed_partial proves the claim when none of these happens; each counterexample satisfies all other provisos."
  },
  {
   "property": "C121",
   "status": "partial",
   "theorems": [
    "Verif.Props.Agreement.c121_same_partial",
    "Verif.Props.Agreement.c121_honest_owner",
    "Verif.Props.Agreement.c121_both_confirmed"
   ],
   "note": "False of the code: an honest node confirms every message it receives, also a second one of the same member for the same round, so with 13 members, threshold 8 and one dishonest member two honest nodes apply different shares (c121_both_confirmed). c121_same_partial proves agreement when no honest node gets two different messages of one member for one round; c121_honest_owner proves it for the shares of honest members unconditionally."
  },
  {
   "property": "C122",
   "status": "partial",
   "theorems": [
    "Verif.Props.Stopped.c122_stopped_partial",
    "Verif.Props.Stopped.c122_blamed_behind"
   ],
   "note": "False of the code: when member 3 stops and its round 2 message for member 2 does not arrive, members 0 and 1 go on to round 3, member 2 cannot, and a node that times out blames member 2 as well, whatever the order of its maps (c122_blamed_behind, four honest members, everything the remaining three sent each other has arrived). c122_stopped_partial proves, for every committee, schedule and set of members that stop, for key generation and signing, that only members that stopped are blamed and that everyone who produced nothing of a round asked about is, provided that no remaining member is behind, more members than the threshold remain, and somebody misses a round asked about. Otherwise the blame rests on the shares accepted (C42, C92)."
  },
  {
   "property": "C123",
   "status": "partial",
   "theorems": [
    "Verif.Props.Undisturbed.c123_keygen_unharmed",
    "Verif.Props.Undisturbed.c123_keygen_partial",
    "Verif.Props.Undisturbed.c123_keysign_unharmed",
    "Verif.Props.Undisturbed.c123_keysign_partial",
    "Verif.Props.Undisturbed.c123_keygen_ceremony_partial",
    "Verif.Props.Undisturbed.c123_keysign_ceremony_partial",
    "Verif.Props.Undisturbed.c123_left_behind"
   ],
   "note": "c123_keygen_unharmed and c123_keysign_unharmed prove the first part in full, for every history of whole calls of several nodes. The second part is false of the code: c123_left_behind is a signing of two messages by two members, undisturbed and at rest, in which the loop of one takes its results before its last shares; it returns its signatures, and the other fails when its time is up. c123_keygen_partial and c123_keysign_partial prove it when no loop that has returned has left shares in its channel (Drained), for all committees, rounds and interleavings, with the calls returning success; c123_keygen_ceremony_partial and c123_keysign_ceremony_partial derive it from the set-up of the sessions (C94, C112). The local parties (tss-lib) are not modelled: what they must do is the hypothesis Prompt."
  },
  {
   "property": "C124",
   "status": "partial",
   "theorems": [
    "Verif.Props.CommandLine.c124_reads_partial",
    "Verif.Props.CommandLine.c124_honoured",
    "Verif.Props.CommandLine.c124_order",
    "Verif.Props.CommandLine.c124_refused",
    "Verif.Props.CommandLine.c124_ignored",
    "Verif.Props.CommandLine.c124_home_lost",
    "Verif.Props.CommandLine.c124_join_time",
    "Verif.Props.CommandLine.c124_goes_on"
   ],
   "note": "c124_reads_partial: exactly which command lines are accepted with which settings; c124_honoured, c124_order, c124_refused, c124_goes_on: settings honoured, order irrelevant, errors refused. c124_ignored, c124_home_lost refute the part that nothing given is ignored: everything behind the first argument that is no flag is. c124_join_time: the join time is always ten seconds. Durations, integers and multiaddresses are read by parameters."
  },
  {
   "property": "C125",
   "status": "partial",
   "theorems": [
    "Verif.Props.Retry.c125_some_attempt_partial",
    "Verif.Props.Retry.c125_fresh_partial",
    "Verif.Props.Retry.c125_stale_share",
    "Verif.Props.Retry.c125_stale_blame",
    "Verif.Props.Retry.c125_stale_blocks",
    "Verif.Props.Retry.c125_stale_done"
   ],
   "note": "c125_stale_share, c125_stale_blame, c125_stale_blocks, c125_stale_done refute the claim with honest nodes only. c125_some_attempt_partial: a share applied from an honest member was produced by it in this or an earlier attempt, under unforgeable signatures. c125_fresh_partial: with nothing on its way at the restart, the new attempt is a first attempt, so that C102-C106 and the theorems about single sessions apply."
  },
  {
   "property": "C126",
   "status": "partial",
   "theorems": [
    "Verif.Props.Rejoin.c126_each_call_partial",
    "Verif.Props.Rejoin.c126_alone_partial",
    "Verif.Props.Rejoin.c126_announced_partial",
    "Verif.Props.Rejoin.c126_old_party",
    "Verif.Props.Rejoin.c126_old_failure",
    "Verif.Props.Rejoin.c126_mixed",
    "Verif.Props.Rejoin.c126_starved",
    "Verif.Props.Rejoin.c126_removed"
   ],
   "note": "c126_old_party, c126_old_failure, c126_mixed, c126_starved, c126_removed refute the claim with honest nodes only. c126_each_call_partial: every call is a single join call (C19-C23) given a sub-multiset of the messages that arrived for its id since it began. c126_alone_partial: all of them, if no other call for the id overlaps. c126_announced_partial: the returned party was announced by the honest leader for this id, in some attempt."
  },
  {
   "property": "C127",
   "status": "proved",
   "theorems": [
    "Verif.Props.PeerTexts.c127_text",
    "Verif.Props.PeerTexts.c127_injective",
    "Verif.Props.PeerTexts.c127_read_back",
    "Verif.Props.PeerTexts.c127_read",
    "Verif.Props.PeerTexts.c127_key",
    "Verif.Props.PeerTexts.c127_keys",
    "Verif.Props.PeerTexts.c127_only_keys"
   ],
   "note": "Base58 and the decoding of peer ids are modelled with unbounded lengths; texts of the CID form are read by a parameter. Example: the four key/peer id pairs noted in keysign_test.go."
  },
  {
   "property": "C128",
   "status": "partial",
   "theorems": [
    "Verif.Props.Process.c128_one_answer",
    "Verif.Props.Process.c128_graceful_partial",
    "Verif.Props.Process.c128_stopped_once",
    "Verif.Props.Process.c128_no_new_connection",
    "Verif.Props.Process.c128_waits",
    "Verif.Props.Process.c128_goes_on",
    "Verif.Props.Process.c128_ends",
    "Verif.Props.Process.c128_no_api",
    "Verif.Props.Process.c128_last_answer",
    "Verif.Props.Process.c128_prompt",
    "Verif.Props.Process.c128_cut_off",
    "Verif.Props.Process.c128_panic",
    "Verif.Props.Process.c128_late_request"
   ],
   "note": "c128_graceful_partial: a graceful stop leaves no request unanswered except those whose handler panicked, and nothing is read afterwards; c128_one_answer, c128_no_new_connection, c128_stopped_once, c128_waits, c128_ends, c128_goes_on prove the rest of the claim for every history. False: c128_cut_off (a request that runs longer than the ten seconds is never answered), c128_panic, c128_no_api (an address that cannot be bound leaves a process without API). net/http is modelled as documented, one request at a time per connection."
  },
  {
   "property": "C129",
   "status": "proved",
   "theorems": [
    "Verif.Props.VersionTexts.c129_parse",
    "Verif.Props.VersionTexts.c129_one_version",
    "Verif.Props.VersionTexts.c129_one_text",
    "Verif.Props.VersionTexts.c129_every_version",
    "Verif.Props.VersionTexts.c129_leader",
    "Verif.Props.VersionTexts.c129_leaderless",
    "Verif.Props.VersionTexts.c129_refused",
    "Verif.Props.VersionTexts.c129_same"
   ],
   "note": "The parser of blang/semver v3.5.1 is library code and is modelled from its source as published; kinds of errors are left out."
  },
  {
   "property": "C130",
   "status": "proved",
   "theorems": [
    "Verif.Props.Protobuf.c130_fields",
    "Verif.Props.Protobuf.c130_read_request",
    "Verif.Props.Protobuf.c130_read_comm",
    "Verif.Props.Protobuf.c130_read_notice",
    "Verif.Props.Protobuf.c130_read_signature",
    "Verif.Props.Protobuf.c130_comm",
    "Verif.Props.Protobuf.c130_request",
    "Verif.Props.Protobuf.c130_both",
    "Verif.Props.Protobuf.c130_lawful",
    "Verif.Props.Protobuf.c130_notice",
    "Verif.Props.Protobuf.c130_signature",
    "Verif.Props.Protobuf.c130_roundtrip",
    "Verif.Props.Protobuf.c130_short",
    "Verif.Props.Protobuf.c130_extended"
   ],
   "note": "The encoding (google.golang.org/protobuf v1.25.0) is library code and is modelled from its published source, for the kinds of fields these messages have; the limit of 4 GiB stands for the limit of the stream header. c130_lawful and c130_roundtrip instantiate the hypotheses of C96 and C97-C101 with it."
  },
  {
   "property": "C131",
   "status": "partial",
   "theorems": [
    "Verif.Props.MessageTexts.c131_read",
    "Verif.Props.MessageTexts.c131_write",
    "Verif.Props.MessageTexts.c131_roundtrip",
    "Verif.Props.MessageTexts.c131_answer",
    "Verif.Props.MessageTexts.c131_injective",
    "Verif.Props.MessageTexts.c131_ceremony_partial",
    "Verif.Props.MessageTexts.c131_other_ceremony"
   ],
   "note": "Proved but for the last sentence, which is false when texts with line ends or with other added bits are used (c131_other_ceremony: the id is computed from the texts, not from the messages); for the texts that answers use it is proved, in both directions. Go encoding/base64 is library code and modelled from its published source."
  },
  {
   "property": "C132",
   "status": "proved",
   "theorems": [
    "Verif.Props.JsonTexts.c132_characters",
    "Verif.Props.JsonTexts.c132_written",
    "Verif.Props.JsonTexts.c132_text",
    "Verif.Props.JsonTexts.c132_unambiguous",
    "Verif.Props.JsonTexts.c132_first",
    "Verif.Props.JsonTexts.c132_first_value",
    "Verif.Props.JsonTexts.c132_quote",
    "Verif.Props.JsonTexts.c132_quote_plain",
    "Verif.Props.JsonTexts.c132_number"
   ],
   "note": "`parse` and `firstValue` model the scanner and decoder of encoding/json (of the standard library, not of the repository) on characters; the limit of 10000 nested values of newer Go versions is not modelled. Both directions are proved against a relational grammar."
  },
  {
   "property": "C133",
   "status": "proved",
   "theorems": [
    "Verif.Props.JsonMessages.c133_wire",
    "Verif.Props.JsonMessages.c133_wrapped",
    "Verif.Props.JsonMessages.c133_confirm",
    "Verif.Props.JsonMessages.c133_control",
    "Verif.Props.JsonMessages.c133_task",
    "Verif.Props.JsonMessages.c133_bulk",
    "Verif.Props.JsonMessages.c133_lossless",
    "Verif.Props.JsonMessages.c133_envelope",
    "Verif.Props.JsonMessages.c133_delivered",
    "Verif.Props.JsonMessages.c133_setting",
    "Verif.Props.JsonMessages.c133_keygen",
    "Verif.Props.JsonMessages.c133_keysign"
   ],
   "note": "Strings of Go are modelled as valid UTF-8 texts. A party is written by the parts tss-lib has (id, moniker, key, index); ids are the decimal numbers of the parties. Nil and empty byte strings are not told apart. `c133_delivered`: the communication layer finds every kind of message of a session under its own topic. `c133_setting`, `c133_keygen` and `c133_keysign` carry the theorems on sessions over to these bytes."
  },
  {
   "property": "C134",
   "status": "partial",
   "theorems": [
    "Verif.Props.JsonReading.c134_wrapped",
    "Verif.Props.JsonReading.c134_wire",
    "Verif.Props.JsonReading.c134_routing",
    "Verif.Props.JsonReading.c134_confirm",
    "Verif.Props.JsonReading.c134_control",
    "Verif.Props.JsonReading.c134_bulk",
    "Verif.Props.JsonReading.c134_list",
    "Verif.Props.JsonReading.c134_text",
    "Verif.Props.JsonReading.c134_stranger",
    "Verif.Props.JsonReading.c134_kinds",
    "Verif.Props.JsonReading.c134_other_bytes",
    "Verif.Props.JsonReading.c134_crash"
   ],
   "note": "Exactly which bytes are read as which message, for every kind (c134_wrapped, c134_wire, c134_routing, c134_confirm, c134_control, c134_bulk, c134_text). False parts refuted: c134_kinds (messages are read as messages of another kind), c134_crash (bytes that crash every session in every state), c134_other_bytes (one message has several texts)."
  },
  {
   "property": "C135",
   "status": "proved",
   "theorems": [
    "Verif.Props.JsonHttp.c135_indent",
    "Verif.Props.JsonHttp.c135_gen",
    "Verif.Props.JsonHttp.c135_sign",
    "Verif.Props.JsonHttp.c135_gen_body",
    "Verif.Props.JsonHttp.c135_sign_body",
    "Verif.Props.JsonHttp.c135_gen_answer",
    "Verif.Props.JsonHttp.c135_sign_answer",
    "Verif.Props.JsonHttp.c135_keygen",
    "Verif.Props.JsonHttp.c135_keysign",
    "Verif.Props.JsonHttp.c135_sloppy",
    "Verif.Props.JsonHttp.c135_flag"
   ],
   "note": "Through the handlers of C61 with the real texts. The block height must be an int64, as it is in the Go struct. c135_sloppy and c135_flag show what is accepted although it is no request, and what the flag says."
  },
  {
   "property": "C136",
   "status": "proved",
   "theorems": [
    "Verif.Props.JsonStorage.c136_cut",
    "Verif.Props.JsonStorage.c136_state",
    "Verif.Props.JsonStorage.c136_file",
    "Verif.Props.JsonStorage.c136_data",
    "Verif.Props.JsonStorage.c136_point",
    "Verif.Props.JsonStorage.c136_torn",
    "Verif.Props.JsonStorage.c136_good",
    "Verif.Props.JsonStorage.c136_history",
    "Verif.Props.JsonStorage.c136_never_wrong",
    "Verif.Props.JsonStorage.c136_crash_loses",
    "Verif.Props.JsonStorage.c136_unchecked"
   ],
   "note": "With the real texts of keys (C115) and of JSON (C132): c136_good discharges the assumptions on storage of C52, C54-C56, C79-C81, C114. The layout of tss-lib's save data is taken from test_data/keysign_data; points are on the curve, as tss-lib ensures. c136_crash_loses refutes C55 at every byte; c136_unchecked shows that the content of a file is not compared with its name."
  },
  {
   "property": "C137",
   "status": "proved",
   "theorems": [
    "Verif.Props.Ecdsa.c137_add",
    "Verif.Props.Ecdsa.c137_mul",
    "Verif.Props.Ecdsa.c137_public_key",
    "Verif.Props.Ecdsa.c137_verify",
    "Verif.Props.Ecdsa.c137_equation",
    "Verif.Props.Ecdsa.c137_sign",
    "Verif.Props.Ecdsa.c137_node",
    "Verif.Props.Ecdsa.c137_accepted",
    "Verif.Props.Ecdsa.c137_session",
    "Verif.Props.Ecdsa.c137_pool",
    "Verif.Props.Ecdsa.c137_waiting",
    "Verif.Props.Ecdsa.c137_malleable",
    "Verif.Props.Ecdsa.c137_forged",
    "Verif.Props.Ecdsa.c137_every_key"
   ],
   "note": "c137_add and c137_mul: the arithmetic is that of the group of the curve (Mathlib's group of y^2 = x^3 + 7 over the field). c137_public_key, c137_every_key: private and public keys determine each other (the order of the group is proved to be the prime N in Lemmas/Secp). c137_verify, c137_accepted, c137_pool, c137_waiting: what is accepted, exactly. c137_equation, c137_sign, c137_node, c137_session: signatures that are made are accepted. c137_malleable, c137_forged: what acceptance does not mean. Trusted: that btcec, decred secp256k1 and crypto/ecdsa compute what Model/Secp says; the unforgeability of ECDSA is not claimed."
  },
  {
   "property": "C138",
   "status": "proved",
   "theorems": [
    "Verif.Props.RecoveryFiles.c138_share",
    "Verif.Props.RecoveryFiles.c138_as_the_node",
    "Verif.Props.RecoveryFiles.c138_recovers",
    "Verif.Props.RecoveryFiles.c138_wrong_for_larger_pools",
    "Verif.Props.RecoveryFiles.c138_torn",
    "Verif.Props.RecoveryFiles.c138_not_compared",
    "Verif.Props.RecoveryFiles.c138_file",
    "Verif.Props.RecoveryFiles.c138_opens",
    "Verif.Props.RecoveryFiles.c138_null",
    "Verif.Props.RecoveryFiles.c138_exported",
    "Verif.Props.RecoveryFiles.c138_mixed"
   ],
   "note": "c138_share, c138_as_the_node: the tool reads what the node saved. c138_recovers, c138_exported, c138_file, c138_opens, c138_torn: recovery and export with real files, keys and JSON. c138_wrong_for_larger_pools, c138_not_compared, c138_mixed, c138_null: what the tool gets wrong or does not check. AES, PBKDF2, Keccak stay parameters; the address that is printed too is left out."
  },
  {
   "property": "C139",
   "status": "proved",
   "theorems": [
    "Verif.Props.SignedAnswers.c139_answer",
    "Verif.Props.SignedAnswers.c139_client"
   ],
   "note": "Assumed of tss-lib: each signer delivers at most once, a signature of its message (LibSigns). Keys, base64, notices, JSON and the check of signatures are those of the program; nothing is assumed of the nodes that send notices."
  },
  {
   "property": "C140",
   "status": "proved",
   "theorems": [
    "Verif.Props.PoolLife.c140_life",
    "Verif.Props.PoolLife.c140_taken_up"
   ],
   "note": "With the files, key texts, base64, notices and signatures of the program. Assumed of tss-lib: the points it delivers are on the curve and its signatures are right (LibSigns)."
  },
  {
   "property": "C141",
   "status": "proved",
   "theorems": [
    "Verif.Props.BatchStart.c141_parties",
    "Verif.Props.BatchStart.c141_returned",
    "Verif.Props.BatchStart.c141_returns",
    "Verif.Props.BatchStart.c141_turn",
    "Verif.Props.BatchStart.c141_needs_monikers"
   ],
   "note": "Start of tss-lib is an arbitrary outcome. c141_needs_monikers shows that the place in the moniker is needed: with colliding monikers the call would never return."
  },
  {
   "property": "C142",
   "status": "partial",
   "theorems": [
    "Verif.Props.Multiaddr.c142_text",
    "Verif.Props.Multiaddr.c142_info",
    "Verif.Props.Multiaddr.c142_contacts_partial",
    "Verif.Props.Multiaddr.c142_start_partial",
    "Verif.Props.Multiaddr.c142_path_blocks",
    "Verif.Props.Multiaddr.c142_line_break",
    "Verif.Props.Multiaddr.c142_left_out",
    "Verif.Props.Multiaddr.c142_listen",
    "Verif.Props.Multiaddr.c142_port",
    "Verif.Props.Multiaddr.c142_negative_port",
    "Verif.Props.Multiaddr.c142_external_unchecked",
    "Verif.Props.Multiaddr.c142_slashes"
   ],
   "note": "With the texts of go-multiaddr written out, for books of network addresses without line breaks (c142_text, c142_info, c142_contacts_partial, c142_start_partial), own addresses (c142_listen, c142_port), which addresses are left out (c142_left_out). False in general, proved: an address with a path (c142_path_blocks) or a host name with a line break (c142_line_break) that another peer announces keeps the node from ever starting again once it is saved; the external address is not checked (c142_external_unchecked). A negative port is accepted and taken modulo 65536 (c142_negative_port)."
  },
  {
   "property": "C143",
   "status": "partial",
   "theorems": [
    "Verif.Props.Main.c143_runs_partial",
    "Verif.Props.Main.c143_identity",
    "Verif.Props.Main.c143_different",
    "Verif.Props.Main.c143_above_order",
    "Verif.Props.Main.c143_zero_key",
    "Verif.Props.Main.c143_short_key",
    "Verif.Props.Main.c143_no_key",
    "Verif.Props.Main.c143_no_home",
    "Verif.Props.Main.c143_again",
    "Verif.Props.Main.c143_stops",
    "Verif.Props.Main.c143_folder"
   ],
   "note": "Proved for secret keys of 32 bytes from 1 to the order of the curve, ports and external IPv4 addresses (c143_runs_partial, c143_identity, c143_different, c143_again, c143_no_key). False otherwise, proved: a key of 16 bytes is accepted and turned into another key (c143_short_key), the key zero is accepted although nobody can find such a node (c143_zero_key), keys above the order are not refused (c143_above_order), without -home known peers are never saved (c143_no_home)."
  },
  {
   "property": "C144",
   "status": "proved",
   "theorems": [
    "Verif.Props.FlagText.c144_number",
    "Verif.Props.FlagText.c144_octal",
    "Verif.Props.FlagText.c144_time",
    "Verif.Props.FlagText.c144_rounded",
    "Verif.Props.FlagText.c144_time_text",
    "Verif.Props.FlagText.c144_settings",
    "Verif.Props.FlagText.c144_negative"
   ],
   "note": "c144_number (ports, exactly), c144_time (limits of whole nanoseconds, exactly), c144_time_text (nothing else is read), c144_rounded (the rest, with binary64 rounding), c144_settings (from the command line to the settings). Consequences worth knowing: c144_octal (06667 is another port than 6667), c144_negative (negative limits are accepted)."
  },
  {
   "property": "C145",
   "status": "proved",
   "theorems": [
    "Verif.Props.Digest.c145_digest",
    "Verif.Props.Digest.c145_text",
    "Verif.Props.Digest.c145_collision",
    "Verif.Props.Digest.c145_keygen_ids",
    "Verif.Props.Digest.c145_keysign_ids",
    "Verif.Props.Digest.c145_leader",
    "Verif.Props.Digest.c145_broadcast",
    "Verif.Props.Digest.c145_other_ceremony"
   ],
   "note": "c145_digest: the model of crypto/sha256 (padding, blocks, schedule, rounds, constants) computes exactly FIPS 180-4 as written down in Spec/Sha256.lean, where the constants are roots of primes. c145_text: the text of a digest. c145_collision: two different byte strings with one digest contain, at named blocks with their states, a collision of the compression function. c145_keygen_ids, c145_keysign_ids, c145_leader, c145_broadcast: C10, C08 and C30 with the real digest; their hypothesis on collisions is replaced by that alternative. c145_other_ceremony: the refutation of C131 with the real digest. The portable code of crypto/sha256 is modelled, not its assembly."
  },
  {
   "property": "C146",
   "status": "proved",
   "theorems": [
    "Verif.Props.PoolAddress.c146_ripemd",
    "Verif.Props.PoolAddress.c146_one_address",
    "Verif.Props.PoolAddress.c146_decodes",
    "Verif.Props.PoolAddress.c146_two_keys",
    "Verif.Props.PoolAddress.c146_pool_address",
    "Verif.Props.PoolAddress.c146_agree"
   ],
   "note": "c146_ripemd: the model of x/crypto/ripemd160 computes the digest of the paper (Spec/Ripemd160.lean; constants as roots, permutations rho and pi as defined there). c146_one_address, c146_decodes, c146_two_keys: addresses of all keys. c146_pool_address: every run of Keygen that succeeds, with the files, key texts and curve of C140 filled in; c146_agree: two nodes. Assumed: tss-lib delivers points on the curve (as in C140). The test vector of conversion_test.go and a run of the demo node are computed beside the theorems."
  },
  {
   "property": "C147",
   "status": "proved",
   "theorems": [
    "Verif.Props.Typos.c147_key_text",
    "Verif.Props.Typos.c147_row_refused",
    "Verif.Props.Typos.c147_four_refused",
    "Verif.Props.Typos.c147_address",
    "Verif.Props.Typos.c147_refused_everywhere",
    "Verif.Props.Typos.c147_not_five"
   ],
   "note": "c147_key_text: key texts are exactly BIP-173 texts (Spec/Bech32.lean: polynomials over GF(32)). c147_row_refused, c147_four_refused, c147_address: mistyped texts do not decode, for all keys and places. The proof: the checksum of a difference is linear over the field with 32 elements; dividing by a monomial and a constant, a difference in four places would make two sums of remainders of monomials equal, which a kernel computation over a table (Lemmas/Bech32Table.lean, Bech32Four.lean) excludes for all distances of places. c147_not_five: two keys on the curve whose texts differ in five characters, so four is the best. c147_refused_everywhere: a text that does not decode is an error of GetParties, GetPeerIDFromPubKey, GetPeerIDsFromPubKeys and CheckKeyOnCurve."
  },
  {
   "property": "C148",
   "status": "partial",
   "theorems": [
    "Verif.Props.Benchmark.c148_own_share",
    "Verif.Props.Benchmark.c148_relay",
    "Verif.Props.Benchmark.c148_signature",
    "Verif.Props.Benchmark.c148_table",
    "Verif.Props.Benchmark.c148_settings_partial",
    "Verif.Props.Benchmark.c148_small_quorum"
   ],
   "note": "c148_own_share, c148_relay, c148_signature and c148_table hold for all shares, orders and histories; c148_settings_partial misses the smallest quorum of the signing tool, which is not checked: c148_small_quorum proves that zero and negative numbers are accepted and never lead to a table"
  },
  {
   "property": "C149",
   "status": "partial",
   "theorems": [
    "Verif.Props.Memory.c149_one_entry_partial",
    "Verif.Props.Memory.c149_honest",
    "Verif.Props.Memory.c149_made_up",
    "Verif.Props.Memory.c149_made_up_bytes"
   ],
   "note": "c149_one_entry_partial and c149_honest hold for all histories; there is no bound independent of what peers send: c149_made_up (any state, any decoders) and c149_made_up_bytes (the bytes of JSON messages) prove that each made-up name costs one entry, without blame or end of the session"
  },
  {
   "property": "C150",
   "status": "partial",
   "theorems": [
    "Verif.Props.ToolLine.c150_reads_partial",
    "Verif.Props.ToolLine.c150_refused",
    "Verif.Props.ToolLine.c150_recovers",
    "Verif.Props.ToolLine.c150_behind",
    "Verif.Props.ToolLine.c150_not_exported",
    "Verif.Props.ToolLine.c150_gen",
    "Verif.Props.ToolLine.c150_sign"
   ],
   "note": "c150_reads_partial, c150_refused (recovery tool), c150_gen, c150_sign (benchmark tools) characterise all command lines; c150_recovers joins them with C138; c150_behind and c150_not_exported prove for all lines that settings behind the first file name have no effect"
  },
  {
   "property": "C151",
   "status": "partial",
   "theorems": [
    "Verif.Props.AcceptRace.c151_records_partial",
    "Verif.Props.AcceptRace.c151_lists_partial",
    "Verif.Props.AcceptRace.c151_reads",
    "Verif.Props.AcceptRace.c151_reads_partial",
    "Verif.Props.AcceptRace.c151_never_invented",
    "Verif.Props.AcceptRace.c151_counts",
    "Verif.Props.AcceptRace.c151_overwritten",
    "Verif.Props.AcceptRace.c151_forgotten",
    "Verif.Props.AcceptRace.c151_named",
    "Verif.Props.AcceptRace.c151_blamed",
    "Verif.Props.AcceptRace.c151_replaced"
   ],
   "note": "the arrays behind the slices are modelled. c151_records_partial and c151_lists_partial: as long as no share of a round is accepted between copying and adding, the record is exactly that of the lists; c151_reads, c151_never_invented and c151_counts hold for all interleavings, c151_reads_partial when nothing of the round arrives during reading. c151_overwritten, c151_forgotten, c151_blamed and c151_replaced prove what goes wrong otherwise"
  },
  {
   "property": "C152",
   "status": "partial",
   "theorems": [
    "Verif.Props.ReleaseRace.c152_own_streams",
    "Verif.Props.ReleaseRace.c152_retained",
    "Verif.Props.ReleaseRace.c152_one_after_the_other_partial",
    "Verif.Props.ReleaseRace.c152_undisturbed_partial",
    "Verif.Props.ReleaseRace.c152_others_kept",
    "Verif.Props.ReleaseRace.c152_added",
    "Verif.Props.ReleaseRace.c152_forgotten",
    "Verif.Props.ReleaseRace.c152_left_out",
    "Verif.Props.ReleaseRace.c152_lost"
   ],
   "note": "the arrays behind the slices are modelled. c152_own_streams, c152_retained, c152_others_kept, c152_added and c152_forgotten hold for all interleavings; c152_one_after_the_other_partial: calls that do not overlap do what the lists of C13 and C14 say; c152_undisturbed_partial: a release during which only other sessions are handed streams or released closes exactly what was retained for its session, then the unknown streams; c152_left_out and c152_lost refute the second sentence"
  }
 ]
}