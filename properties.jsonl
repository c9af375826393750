{"id": "C01", "title": "Threshold is ceil(2n/3)-1", "statement": "conversion.GetThreshold(n) returns exactly ceil(2n/3)-1 with a nil error for every party size 0 <= n <= 3*2^51 (up to there the double precision arithmetic never rounds to a neighbouring integer; at 3*2^51+2 it does), and returns the error 'negative input' for every n < 0. Consequently a signing party (threshold+1) is never larger than the committee and contains at least two thirds of it, and any two signing parties of one committee intersect.", "quantifier": "all integers n with 0 <= n <= 3*2^51 (the claim fails at 3*2^51+2), and all negative n; all pairs of sub-committees", "why_tests_cant": "A test picks a handful of committee sizes; a rounding slip in the float expression or a wrong ceiling shows only at specific n.", "anchors": ["conversion/conversion.go:GetThreshold"]}
{"id": "C02", "title": "Message digest to curve scalar is faithful", "statement": "common.MsgToHashInt maps a message to the big-endian integer of its leftmost 32 bytes; it is injective on 32-byte digests and its result is always below 2^256; messages which share their first 32 bytes get the same integer.", "quantifier": "all byte strings", "why_tests_cant": "Infinite domain; tests compare a few literals.", "anchors": ["common/tss_helper.go:MsgToHashInt", "common/tss_helper.go:hashToInt"]}
{"id": "C03", "title": "Every node derives the same party list", "statement": "conversion.GetParties gives the same ordered party list for every ordering of the same public keys: every key gets one party, whose id is the rank of the key in sorted text order; the list is ordered by key integer value and the index of a party is its position; the local party is the entry of the local key. It fails exactly when some key is undecodable or the local key is not in the list.", "quantifier": "all lists of pub keys, all permutations of them, all local keys", "why_tests_cant": "Permutation space is factorial and nodes are given the key list in different orders.", "anchors": ["conversion/conversion.go:GetParties"]}
{"id": "C04", "title": "Party id, pub key and peer id conversions are mutually inverse", "statement": "For every committee member, converting pub key -> party -> pub key (PartyIDtoPubKey) and pub key -> peer id -> pub key (GetPubKeyFromPeerID after GetPeerIDFromPubKey) return the original pub key, and the peer id obtained through the party (GetPeerIDFromPartyID) is the peer id obtained directly from the pub key.", "quantifier": "all valid compressed secp256k1 keys", "why_tests_cant": "Needs all 33-byte encodings; the big.Int detour drops leading zero bytes so the claim rests on the prefix byte never being zero.", "anchors": ["conversion/conversion.go:PartyIDtoPubKey", "conversion/conversion.go:GetPeerIDFromPartyID", "conversion/key_provider.go:GetPeerIDFromPubKey", "conversion/key_provider.go:GetPubKeyFromPeerID"]}
{"id": "C05", "title": "Blamed party ids are translated completely", "statement": "AccPubKeysFromPartyIDs returns the pub keys of exactly the requested party ids, in order and without dropping any, or an error when some id is not a member; GetPeersID returns every member's peer id except the local one, each exactly once.", "quantifier": "all id lists, all party maps, all map iteration orders", "why_tests_cant": "Go's map iteration order is random; tests see a few of the orders.", "anchors": ["conversion/conversion.go:AccPubKeysFromPartyIDs", "conversion/conversion.go:GetPeersID", "conversion/conversion.go:SetupIDMaps"]}
{"id": "C06", "title": "Join-party protocol version gate is a total order", "statement": "conversion.VersionLTCheck(a,b) is true exactly when a precedes b in semantic-version order; the relation is a strict order, so two nodes given the same request version always choose the same join-party protocol, and exactly versions >= 0.14.0 use the leader based one.", "quantifier": "all pairs of well-formed versions, including pre-releases", "why_tests_cant": "Infinite domain of version strings.", "anchors": ["conversion/tss_helper.go:VersionLTCheck", "messages/version.go:NEWJOINPARTYVERSION", "tss/tss.go:joinParty"]}
{"id": "C07", "title": "Private key input is used exactly as given", "statement": "conversion.GetPriKey accepts an input exactly when it is the base64 of a hex string decoding to at least 32 bytes - and then the key is exactly the decoded first 32 bytes.", "quantifier": "all decoded byte strings of every length", "why_tests_cant": "The failing lengths (16..31 and >32) are not the ones a test uses.", "anchors": ["conversion/key_provider.go:GetPriKey", "conversion/key_provider.go:GetPriKeyRawBytes"]}
{"id": "C08", "title": "All nodes elect the same leader", "statement": "p2p.LeaderNode returns a member of the given peer list, namely the one with the smallest hash of (message id, block height, peer), and the same one for every order of the list as long as the hashes differ; it fails exactly when the list is empty, the message id is empty or the block height is zero.", "quantifier": "all peer lists and permutations, all message ids and block heights", "why_tests_cant": "Nodes hold the list in arbitrary orders; a test checks one list.", "anchors": ["p2p/leader_provider.go:LeaderNode"]}
{"id": "C09", "title": "Message id does not depend on the order of the request", "statement": "The message id of a keygen or keysign request is the same for every ordering of its key list and of its messages.", "quantifier": "all requests and all permutations of their lists", "why_tests_cant": "Factorially many permutations.", "anchors": ["tss/tss.go:requestToMsgId"]}
{"id": "C10", "title": "Message id separates different requests", "statement": "Two requests with different messages or signer keys get different message ids.", "quantifier": "all pairs of requests", "why_tests_cant": "It is a statement over pairs of unbounded inputs.", "anchors": ["tss/tss.go:requestToMsgId"]}
{"id": "C11", "title": "Framed stream round trip", "statement": "Whatever WriteStreamWithBuffer writes for a payload of at most MaxPayload bytes, ReadStreamWithBuffer reads back unchanged, however the transport cuts the bytes into chunks and whatever follows the frame.", "quantifier": "all payloads up to MaxPayload, all trailing bytes, all ways the transport may chunk the bytes", "why_tests_cant": "Unbounded payloads and chunkings.", "anchors": ["p2p/stream_helper.go:WriteStreamWithBuffer", "p2p/stream_helper.go:ReadStreamWithBuffer"]}
{"id": "C12", "title": "Truncated or oversized frames are refused", "statement": "ReadStreamWithBuffer never returns a payload for a strict prefix of a frame nor for a length header above MaxPayload, and never allocates more than MaxPayload bytes.", "quantifier": "all byte streams and all cut points", "why_tests_cant": "Cut points and headers are unbounded.", "anchors": ["p2p/stream_helper.go:ReadStreamWithBuffer"]}
{"id": "C13", "title": "Every retained stream is released at the end of its session", "statement": "After ReleaseStream(msgID), every stream that was added for msgID or for the UNKNOWN id since the last release has been reset, no stream of any other session has been reset, and other sessions' streams are still retained.", "quantifier": "all histories of AddStream and ReleaseStream calls", "why_tests_cant": "It is a history property.", "anchors": ["p2p/stream_helper.go:AddStream", "p2p/stream_helper.go:ReleaseStream"]}
{"id": "C14", "title": "Unknown streams do not accumulate", "statement": "Streams filed under the UNKNOWN id are forgotten once they have been reset.", "quantifier": "all histories of AddStream and ReleaseStream calls", "why_tests_cant": "Growth over an unbounded history.", "anchors": ["p2p/stream_helper.go:ReleaseStream"]}
{"id": "C15", "title": "Subscriptions form a map from (topic, message id) to a channel", "statement": "After any history of SetSubscribe and CancelSubscribe calls, a wrapped message of topic t and id m is routed to the channel most recently registered for exactly (t, m) and not cancelled since, and to nobody if there is none.", "quantifier": "all histories of subscribe/cancel calls", "why_tests_cant": "Unbounded interleavings of operations on several topics and ids.", "anchors": ["p2p/communication.go:SetSubscribe", "p2p/communication.go:CancelSubscribe", "p2p/communication.go:getSubscriber", "p2p/message_id_subscriber.go"]}
{"id": "C16", "title": "Sessions clean up after themselves and do not disturb others", "statement": "A keygen or keysign call, whichever exit it takes, leaves no subscription of its own message id and leaves the subscriptions of every other message id as they were.", "quantifier": "all exits, all prior subscription states", "why_tests_cant": "Covers all interleavings with other sessions and every exit path.", "anchors": ["tss/keygen.go:Keygen", "tss/keysign.go:KeySign", "p2p/communication.go:CancelSubscribe"]}
{"id": "C17", "title": "Join-party bookkeeping is consistent", "statement": "In a peer group, getPeersStatus partitions the members other than the local node into online and offline; a member is online iff an accepted response from it was processed; the number of counted responses never exceeds the threshold, and peers outside the group never count.", "quantifier": "all histories of incoming peer updates, including duplicates and strangers", "why_tests_cant": "Unbounded histories of duplicated, reordered and foreign messages.", "anchors": ["p2p/peer_status.go:NewPeerStatus", "p2p/peer_status.go:updatePeer", "p2p/peer_status.go:getPeersStatus"]}
{"id": "C18", "title": "Party formation is signalled exactly once, exactly at the threshold", "statement": "updatePeer reports 'formed' on exactly one update: the one which brings the number of distinct online members to the threshold; never before, never again.", "quantifier": "all histories of peer updates", "why_tests_cant": "Needs every history and every duplicate pattern.", "anchors": ["p2p/peer_status.go:updatePeer"]}
{"id": "C19", "title": "The leader announces success only with enough peers", "statement": "joinPartyLeader returns an online list with nil error exactly when threshold+1 nodes counting itself were online; the list then contains the leader and only members; otherwise it returns the timeout error, and the response type it sends to everybody agrees with what it returns.", "quantifier": "all schedules of join requests, timeouts and signature notifications", "why_tests_cant": "Schedules are unbounded; tests run a lucky one.", "anchors": ["p2p/party_coordinator.go:joinPartyLeader", "p2p/party_coordinator.go:processReqMsg"]}
{"id": "C20", "title": "Join-party stream handlers never block on the notify channel", "statement": "While a peer group exists, handling a join-party request on the leader writes its notify channel at most once, so that the stream handler cannot block for ever; the same holds for the member.", "quantifier": "all message histories for one peer group", "why_tests_cant": "Blocking needs a particular history of messages and a waiter that has gone.", "anchors": ["p2p/party_coordinator.go:processReqMsg", "p2p/party_coordinator.go:processRespMsg"]}
{"id": "C21", "title": "A member only joins what the leader announced", "statement": "joinPartyMember returns a nil error only if the leader itself answered Success with a list of at least threshold decodable peers, and then returns precisely the leader's list; every other answer, and silence, gives an error.", "quantifier": "all message histories from all peers, all schedules", "why_tests_cant": "Adversarial message orders.", "anchors": ["p2p/party_coordinator.go:joinPartyMember", "p2p/party_coordinator.go:processRespMsg", "p2p/party_coordinator.go:HandleStreamWithLeader"]}
{"id": "C22", "title": "A member told that the signature is ready reports so", "statement": "If the signature notification reaches the waiting member before the party is formed, joinPartyMember returns ErrSignReceived.", "quantifier": "all schedules of leader answers and signature notifications", "why_tests_cant": "Depends on the order of two concurrent events.", "anchors": ["p2p/party_coordinator.go:joinPartyMember"]}
{"id": "C23", "title": "Leaderless join returns success exactly when everybody is online", "statement": "JoinPartyWithRetry returns nil error exactly when every peer of the group was heard from, the returned list always contains the local peer and exactly the heard-from peers, and the group is forgotten on return.", "quantifier": "all histories of incoming join messages and schedules", "why_tests_cant": "Schedules unbounded.", "anchors": ["p2p/party_coordinator.go:JoinPartyWithRetry", "p2p/party_coordinator.go:HandleStream"]}
{"id": "C24", "title": "Peer groups are forgotten when the join ends", "statement": "After JoinPartyWithLeader or JoinPartyWithRetry returned, the coordinator holds no peer group for that message id.", "quantifier": "all schedules and exits", "why_tests_cant": "Needs every exit.", "anchors": ["p2p/party_coordinator.go:JoinPartyWithLeader", "p2p/party_coordinator.go:JoinPartyWithRetry", "p2p/party_coordinator.go:removePeerGroup"]}
{"id": "C25", "title": "No share is applied without a valid signature of its sender", "statement": "Whatever sequence of network messages arrives, each share handed to the local threshold-signature party was carried in a message whose payload and session id verify under the public key of the party named as the message's sender.", "quantifier": "all message histories, all payloads, all confirmation schedules", "why_tests_cant": "Adversarial histories.", "anchors": ["common/tss.go:processTSSMsg", "common/tss.go:updateLocal", "common/tss_helper.go:verifySignature"]}
{"id": "C26", "title": "Broadcast shares need a quorum of matching confirmations", "statement": "A broadcast share is handed to the local party only when at least threshold peers (the local one included) confirmed this round message, the most frequent confirmed digest is the digest of that very share, and at least threshold-1 peers voted for it; a different payload is never applied.", "quantifier": "all histories of shares and confirmations, all map iteration orders", "why_tests_cant": "Adversarial votes in all orders.", "anchors": ["common/tss.go:hashCheck", "common/tss.go:getMsgHash", "common/tss.go:applyShare", "common/tss.go:processVerMsg", "common/tss.go:processTSSMsg", "common/tss_helper.go:getHighestFreq"]}
{"id": "C27", "title": "One peer, one vote", "statement": "However often a peer repeats its confirmation of a round message, it counts once, the vote counted is its first one, and it is attributed to the peer the message came from rather than to an identity written in the message.", "quantifier": "all histories of confirmations", "why_tests_cant": "Adversarial histories with repeats and forged identities.", "anchors": ["common/tss.go:processVerMsg", "common/local_cache_item.go", "common/tss.go:ProcessOneMessage"]}
{"id": "C28", "title": "A share owner cannot confirm its own share", "statement": "If the owner of a broadcast share itself sent a confirmation for it, the share is not applied on the strength of that confirmation; the confirmation is discarded and the owner is blamed for it.", "quantifier": "all histories", "why_tests_cant": "Adversarial histories.", "anchors": ["common/tss.go:hashCheck", "common/tss.go:applyShare"]}
{"id": "C29", "title": "An honest broadcaster is not blamed because of others' votes", "statement": "A share owner is blamed for a hash-check failure only for confirming its own share or if at least two peers disagree with the share received; if all confirmations agree nobody is blamed.", "quantifier": "all sets of confirmations and all iteration orders", "why_tests_cant": "Combinatorial space of votes.", "anchors": ["common/tss.go:hashCheck", "common/tss.go:getMsgHash", "common/tss.go:applyShare"]}
{"id": "C30", "title": "Two honest nodes never apply different broadcast shares of one round", "statement": "If two honest nodes each apply a broadcast share of the same party and round, the two shares are equal.", "quantifier": "all committees, all adversary votes, all schedules", "why_tests_cant": "Byzantine behaviour over all committees; the vote rule depends on integer rounding of the threshold.", "anchors": ["common/tss.go:hashCheck", "common/tss.go:getMsgHash"]}
{"id": "C31", "title": "Task-done is signalled exactly once", "statement": "The task-done channel is closed at most once over the whole session (never a close of a closed channel) and, for committees of at least two members, is closed exactly when at least one less than the committee size distinct peers reported completion.", "quantifier": "all histories of task-done messages with repeats", "why_tests_cant": "History property; a double close is a crash only on particular histories.", "anchors": ["common/tss.go:ProcessOneMessage", "common/tss_helper.go:processRequestMsgFromPeer", "common/tss_helper.go:NotifyTaskDone"]}
{"id": "C32", "title": "Share requests are answered only with the stored share", "statement": "A control request makes the node send at most one message, only to the requester, and only the very share which this node stored for that round message; an unanswerable or malformed request sends nothing and changes no state.", "quantifier": "all control messages and cache states", "why_tests_cant": "All cache states.", "anchors": ["common/tss_helper.go:processRequestMsgFromPeer", "common/tss.go:ProcessOneMessage", "common/tss.go:requestShareFromPeer"]}
{"id": "C33", "title": "Each accepted share is applied at most once", "statement": "Over a session, for each (sender, round, message) triple at most one share is applied to the local party: a repeated delivery has no effect, whatever the interleaving.", "quantifier": "all histories of share deliveries with repeats", "why_tests_cant": "History property.", "anchors": ["common/tss.go:updateLocal", "common/tss.go:checkDupAndUpdateVerMsg", "blame/manager.go:CheckMsgDuplication", "blame/manager.go:UpdateAcceptShare"]}
{"id": "C34", "title": "A share is attributed to the party that signed it", "statement": "The party index under which an inner share of a bulk message is applied to the local state is the party whose signature authenticated the bulk message.", "quantifier": "all bulk messages", "why_tests_cant": "Adversarial payload.", "anchors": ["common/tss.go:updateLocal", "common/tss.go:processTSSMsg"]}
{"id": "C35", "title": "No network message crashes the node", "statement": "Processing a network message always returns (possibly an error); no decodable message content makes it panic.", "quantifier": "all wrapped messages, all cache states", "why_tests_cant": "Crash inputs are adversarial.", "anchors": ["common/tss.go:ProcessOneMessage", "common/tss.go:processTSSMsg", "common/tss.go:updateLocal", "common/tss.go:processVerMsg"]}
{"id": "C36", "title": "A culprit's shares are not applied again", "statement": "Once the local party reported a peer as culprit for a round message, later shares of that peer in that session are not applied.", "quantifier": "all histories", "why_tests_cant": "History property.", "anchors": ["common/tss.go:updateLocal", "common/tss.go:doTssJob", "common/tss.go:processInvalidMsgBlame"]}
{"id": "C37", "title": "Outgoing shares are batched exactly once, in order, never mixed", "statement": "Over any sequence of protocol outputs, each share is put in exactly one outgoing bulk message, each bulk message holds exactly as many shares as there are messages to sign, all of one type and (for unicast) for one destination, in the order produced; broadcasts go to all peers and unicasts only to their destination.", "quantifier": "all output sequences, all batch sizes >= 1", "why_tests_cant": "Interleaving of outputs of concurrent signers is unbounded.", "anchors": ["common/tss.go:ProcessOutCh", "common/tss.go:sendBulkMsg"]}
{"id": "C38", "title": "Node-sync blame names exactly the absent nodes", "statement": "NodeSyncBlame blames exactly the requested keys whose peer is not in the online list, in request order, with reason tss-sync-fail, and fails exactly if some key has no peer id.", "quantifier": "all key lists and online lists", "why_tests_cant": "All subsets and orders.", "anchors": ["blame/policy.go:NodeSyncBlame"]}
{"id": "C39", "title": "Blame lists split the committee", "statement": "The in-list and not-in-list pub keys of a list of peers are disjoint, contain no duplicates, the not-in-list never contains the local node, and together with the local node they cover the committee.", "quantifier": "all party maps, peer lists and map iteration orders", "why_tests_cant": "All subsets and orders.", "anchors": ["blame/policy_helper.go:getBlamePubKeysInList, getBlamePubKeysNotInList"]}
{"id": "C40", "title": "Broadcast timeout blame is exact", "statement": "GetBroadcastBlame blames exactly the committee members other than the local node whose message of the stuck round was not accepted (for a round message of the session).", "quantifier": "all acceptance histories and iteration orders", "why_tests_cant": "All subsets of accepted messages.", "anchors": ["blame/policy.go:GetBroadcastBlame", "blame/policy.go:tssTimeoutBlame", "blame/round_mgr.go", "blame/manager.go:UpdateAcceptShare"]}
{"id": "C41", "title": "Unicast timeout blame is exact", "statement": "GetUnicastBlame blames exactly the members other than the local node that did not deliver their unicast share, and fails when no unicast peer was recorded for the round.", "quantifier": "all histories of unicast deliveries and iteration orders", "why_tests_cant": "All subsets.", "anchors": ["blame/policy.go:GetUnicastBlame", "blame/manager.go:SetLastUnicastPeer"]}
{"id": "C42", "title": "Missing-share blame names the peers whose share is missing", "statement": "TssMissingShareBlame blames exactly the peers from which no share was accepted for the first round with a missing share, in every message group.", "quantifier": "all acceptance histories, all numbers of messages, all iteration orders", "why_tests_cant": "Batch and order dependence.", "anchors": ["blame/policy.go:TssMissingShareBlame"]}
{"id": "C43", "title": "Adding blame nodes never lists a node twice", "statement": "AddBlameNodes never introduces a second entry with an equal pub key and signature, never loses an existing entry and adds every node it is given. AlreadyBlame answers true exactly if a node has been named by the calls so far.", "quantifier": "all sequences of AddBlameNodes calls", "why_tests_cant": "History property.", "anchors": ["blame/blame.go:AddBlameNodes", "blame/blame.go:Equal", "blame/blame.go:AlreadyBlame"]}
{"id": "C44", "title": "Wrong-share blame points at the sender with its evidence", "statement": "TssWrongShareBlame blames exactly the sender of the offending message and attaches the offending message and its signature as evidence; for reported culprits every culprit gets one blame node, carrying the evidence of its own message or none.", "quantifier": "all wire messages and culprit sets", "why_tests_cant": "All culprit subsets.", "anchors": ["blame/policy.go:TssWrongShareBlame", "common/tss.go:processInvalidMsgBlame"]}
{"id": "C45", "title": "The local node never blames itself for silence", "statement": "No timeout blame (node sync of a joined local node, broadcast, unicast) of a node contains the node itself.", "quantifier": "all histories", "why_tests_cant": "All subsets and orders.", "anchors": ["blame/policy.go", "blame/policy_helper.go"]}
{"id": "C46", "title": "Signatures are returned for the message they sign", "statement": "In the response of a signing request the k-th signature is the one produced for the k-th message in the order fixed by the hashes, and every message of the request has exactly one signature.", "quantifier": "all message lists, all completion orders of the concurrent signers", "why_tests_cant": "Concurrent completion orders are unbounded.", "anchors": ["keysign/tss_keysign.go:SignMessage", "keysign/tss_keysign.go:processKeySign", "tss/keysign.go:batchSignatures", "tss/keysign.go:KeySign"]}
{"id": "C47", "title": "A non-signer accepts only verified signatures", "statement": "The signature notifier reports signatures only if each of them verifies against its own message under the pool's public key, and every message received one.", "quantifier": "all received signature lists", "why_tests_cant": "Adversarial data.", "anchors": ["keysign/notifier.go:ProcessSignature", "keysign/notifier.go:verifySignature"]}
{"id": "C48", "title": "A waiting request is served at most once and then removed", "statement": "For each wait the notifier delivers at most one result; malformed, failed or foreign notifications never deliver anything; after the wait ended, whichever way, the notifier is no longer registered.", "quantifier": "all histories of notifications, waits and timeouts", "why_tests_cant": "History property.", "anchors": ["keysign/signature_notifier.go:handleStream", "keysign/signature_notifier.go:WaitForSignature", "keysign/notifier.go:ProcessSignature"]}
{"id": "C49", "title": "The keysign response follows the decision table", "statement": "KeySign answers Success iff signatures were obtained either by receiving verified ones or by generating them; when both paths fail the answer is the failure of the generation path; signatures are never returned together with a Fail status.", "quantifier": "all outcomes of both concurrent paths in both orders of completion", "why_tests_cant": "Race of two goroutines.", "anchors": ["tss/keysign.go:KeySign", "tss/keysign.go:updateKeySignResult", "tss/keysign.go:waitForSignatures"]}
{"id": "C50", "title": "The internal result channel never blocks or panics", "statement": "During a KeySign call at most two values are ever sent on the internal signature channel, none after it was closed, and it is closed once; so neither goroutine blocks or panics.", "quantifier": "all interleavings of the two goroutines", "why_tests_cant": "All schedules.", "anchors": ["tss/keysign.go:KeySign", "tss/keysign.go:waitForSignatures", "tss/keysign.go:generateSignature"]}
{"id": "C51", "title": "A signing run starts only with enough signers who hold shares", "statement": "KeySign refuses, before any protocol message is sent, a request with no more signer keys than the threshold of the stored pool key; and a request for an unknown pool key; a node not among the signers never generates a signature.", "quantifier": "all requests and all stored states", "why_tests_cant": "All sizes.", "anchors": ["tss/keysign.go:KeySign"]}
{"id": "C52", "title": "Keygen never reports success for a key whose share was not stored", "statement": "If Keygen returns Success with a pool key, the local share for that pool key has been written to storage before; a storage failure is an error.", "quantifier": "all executions and fault points of the storage", "why_tests_cant": "Fault points.", "anchors": ["keygen/tss_keygen.go:processKeyGen", "tss/keygen.go:Keygen", "storage/localstate_mgr.go:SaveLocalState"]}
{"id": "C53", "title": "Join failures are blamed on absent nodes and never on silence alone", "statement": "When the party cannot be formed, the response is Fail, contains no key or signature, and the blame is the node-sync blame of the peers reported online (plus the leader when it was the leader which did not answer).", "quantifier": "all join outcomes", "why_tests_cant": "All outcomes.", "anchors": ["tss/keygen.go:Keygen", "tss/keysign.go:generateSignature"]}
{"id": "C54", "title": "Stored key shares are read back, keys are independent", "statement": "After any sequence of saves, GetLocalState(k) returns the last state saved for k, for valid keys; saving one key never changes another key's state nor the address book.", "quantifier": "all sequences of saves", "why_tests_cant": "History over all keys.", "anchors": ["storage/localstate_mgr.go:SaveLocalState", "storage/localstate_mgr.go:GetLocalState", "storage/localstate_mgr.go:getFilePathName"]}
{"id": "C55", "title": "A crash while saving does not lose key shares", "statement": "If the process crashes during SaveLocalState, afterwards every key reads as either its old or its new state.", "quantifier": "all crash points in all save histories", "why_tests_cant": "Crash points.", "anchors": ["storage/localstate_mgr.go:SaveLocalState"]}
{"id": "C56", "title": "Storage files of different keys never collide", "statement": "The file name of a pool key is different for different keys, different from the address book, and stays inside the configured folder.", "quantifier": "all pairs of accepted keys", "why_tests_cant": "All pairs.", "anchors": ["storage/localstate_mgr.go:getFilePathName", "storage/localstate_mgr.go:SaveAddressBook"]}
{"id": "C57", "title": "The address book round trips", "statement": "RetrieveP2PAddresses after SaveAddressBook yields exactly the saved non-loopback addresses, each with the peer id it was saved under.", "quantifier": "all address books and map iteration orders", "why_tests_cant": "All books and orders.", "anchors": ["storage/localstate_mgr.go:SaveAddressBook", "storage/localstate_mgr.go:RetrieveP2PAddresses"]}
{"id": "C58", "title": "Recovery reconstructs the pool private key from any quorum", "statement": "The Lagrange interpolation used by tss-recovery returns the shared secret for any t+1 (or more) shares with distinct indices of a degree-t sharing.", "quantifier": "all fields, polynomials and share subsets", "why_tests_cant": "All polynomials.", "anchors": ["cmd/tss-recovery/tss-recovery.go:main", "cmd/tss-recovery/tool.go"]}
{"id": "C59", "title": "Recovery honours the configured number of signers", "statement": "tss-recovery uses the value of its -n flag as the number of share files.", "quantifier": "all command lines", "why_tests_cant": "All flag values.", "anchors": ["cmd/tss-recovery/tss-recovery.go:main"]}
{"id": "C60", "title": "Keystore encryption round trips", "statement": "Applying the keystore's CTR cipher twice with the same key and iv is the identity; so the exported keystore decrypts to the recovered key, and different keys give different ciphertexts.", "quantifier": "all key streams and plaintexts", "why_tests_cant": "All plaintexts.", "anchors": ["cmd/tss-recovery/tool.go:aesCTRXOR", "cmd/tss-recovery/key.go:exportKeyStore"]}
{"id": "C61", "title": "HTTP status codes reflect the outcome", "statement": "The HTTP handlers answer 405 to a wrong method, 400 to an undecodable body and 200 with the JSON result on success; a failed keysign is 500; the server is never called in the first two cases; a ping is answered 200, and the question for the peer id with the peer id.", "quantifier": "all requests", "why_tests_cant": "All request/outcome combinations.", "anchors": ["cmd/tss/tss_http.go:keygenHandler", "cmd/tss/tss_http.go:keySignHandler"]}
{"id": "C62", "title": "Metrics count every finished request once", "statement": "After any sequence of keygen/keysign/join updates the success and failure counters equal the number of successful and failed updates of each kind.", "quantifier": "all sequences of updates", "why_tests_cant": "History property.", "anchors": ["monitor/metric.go"]}
{"id": "C63", "title": "Key generation and signing end within their configured time", "statement": "The keygen and keysign loops finish at most KeyGenTimeout / KeySignTimeout after they started, and do not time out earlier.", "quantifier": "all arrival schedules of protocol messages", "why_tests_cant": "All schedules.", "anchors": ["keygen/tss_keygen.go:processKeyGen", "keysign/tss_keysign.go:processKeySign"]}
{"id": "C64", "title": "Bootstrap connection verdict", "statement": "Connecting to the bootstrap peers succeeds exactly when no bootstrap peer is configured or at least one of them was reached.", "quantifier": "all lists of peers and all connection outcomes and completion orders", "why_tests_cant": "All outcome vectors and orders.", "anchors": ["p2p/communication.go:connectToBootstrapPeers"]}
{"id": "C65", "title": "Round classification is exact", "statement": "GetMsgRound maps every tss-lib message type of keygen and keysign to its own distinct (round, index) slot in protocol order, in range for the number of rounds, and every other type is an error; a fault found while handling a unicast message, or one of the slot directly after it, is marked as unicast.", "quantifier": "all message types", "why_tests_cant": "All messages.", "anchors": ["common/tss_helper.go:GetMsgRound", "common/tss_helper.go:checkUnicast", "messages/TssPhaseMessages.go"]}
{"id": "C66", "title": "Highest-frequency vote is a maximum", "statement": "getHighestFreq returns a digest with maximal number of votes together with that number, for every map iteration order, and fails exactly on an empty vote set.", "quantifier": "all vote sets and iteration orders", "why_tests_cant": "All orders.", "anchors": ["common/tss_helper.go:getHighestFreq"]}
{"id": "C67", "title": "Several frames on one stream are all read", "statement": "If several payloads are written to one stream, successive ReadStreamWithBuffer calls on it return them one after the other, however the transport cuts the bytes into chunks.", "quantifier": "all sequences of payloads and all chunkings", "why_tests_cant": "Whether two frames share a chunk is up to the transport's timing.", "anchors": ["p2p/stream_helper.go:ReadStreamWithBuffer"]}
{"id": "C68", "title": "A stream added while its session is being released is not lost", "statement": "Whatever the interleaving of AddStream and ReleaseStream calls, every stream handed to AddStream is either reset by a release or still retained.", "quantifier": "all interleavings of concurrent AddStream and ReleaseStream calls", "why_tests_cant": "The window between the two critical sections of ReleaseStream is a few instructions wide.", "anchors": ["p2p/stream_helper.go:ReleaseStream", "p2p/stream_helper.go:AddStream"]}
{"id": "C69", "title": "Leaderless join returns as soon as everybody is online", "statement": "JoinPartyWithRetry returns without waiting for its timeout once every member of the group has been heard from.", "quantifier": "all schedules of incoming join messages", "why_tests_cant": "A test cannot tell 'returns at once' from 'returns at the time limit' without waiting, and passes either way.", "anchors": ["p2p/party_coordinator.go:JoinPartyWithRetry", "p2p/party_coordinator.go:HandleStream"]}
{"id": "C70", "title": "Only committee members' confirmations and reports count", "statement": "A broadcast share is applied only after enough distinct committee members reported its digest, and the task ends only after enough committee members reported completion; messages of peers outside the committee do not count.", "quantifier": "all histories of messages from members and outsiders", "why_tests_cant": "Needs all histories with arbitrary senders.", "anchors": ["common/tss.go:ProcessOneMessage", "common/tss.go:processVerMsg", "common/tss.go:checkDupAndUpdateVerMsg"]}
{"id": "C71", "title": "Evidence in a blame is genuine", "statement": "At every point of a session, every node blamed by the processing of messages is a committee member, and the evidence attached to it, if any, is a message that was received and that verifies under this member's key for this session.", "quantifier": "all histories of messages and worker schedules", "why_tests_cant": "An invariant over every history; forged evidence would need one specific interleaving.", "anchors": ["common/tss.go:applyShare", "common/tss.go:processInvalidMsgBlame", "blame/policy.go:TssWrongShareBlame", "blame/manager.go"]}
{"id": "C72", "title": "Everything a session sends in reply is legitimate", "statement": "While it processes received messages, a session sends only: confirmations of signed broadcast messages it received, with their digest, to all peers but the owner; requests for a message, only to peers who reported exactly the requested digest for that round, at least threshold - 1 of them; and answers, to the requester only, with a received signed message of the requested round that has won its vote.", "quantifier": "all histories of received messages, all schedules of the workers", "why_tests_cant": "The digest asked for, the voters and the stored message depend on the whole history.", "anchors": ["common/tss.go:processTSSMsg", "common/tss.go:requestShareFromPeer", "common/tss.go:receiverBroadcastHashToPeers", "common/tss_helper.go:processRequestMsgFromPeer"]}
{"id": "C73", "title": "Unsolicited or repeated answers have no effect", "statement": "An answer with a requested message is ignored unless this message was asked for: threshold - 1 peers have reported its digest. After one answer for a digest, further ones are ignored until the node sends a new request for this digest.", "quantifier": "all histories of received messages", "why_tests_cant": "A remote node can send an answer at any moment of any history.", "anchors": ["common/tss.go:ProcessOneMessage", "blame/share_mgr.go:QueryAndDelete", "blame/share_mgr.go:Set"]}
{"id": "C74", "title": "A valid notification reaches the request that waits for it", "statement": "While a wait for signatures is open, a notification that carries valid signatures for it makes the wait return signatures.", "quantifier": "all histories of waits, notifications, timeouts and cancellations", "why_tests_cant": "needs every interleaving of several waits and notifications", "anchors": ["keysign/signature_notifier.go:handleStream, addToNotifiers, removeNotifier, WaitForSignature"]}
{"id": "C75", "title": "No notification from another node crashes this node", "statement": "Whatever bytes another node sends on the signature notification protocol, the handler returns without a panic.", "quantifier": "all histories and all payloads", "why_tests_cant": "ranges over all remote inputs in all states", "anchors": ["keysign/notifier.go:ProcessSignature", "keysign/signature_notifier.go:handleStream"]}
{"id": "C76", "title": "No signing request crashes the node", "statement": "Whatever the request and whatever other nodes send while it is handled, KeySign returns an answer or keeps waiting; it does not panic.", "quantifier": "all requests, all interleavings of the two goroutines, all histories of the join, the session and the notifier", "why_tests_cant": "ranges over all requests and all schedules", "anchors": ["tss/keysign.go:KeySign", "keysign/tss_keysign.go:SignMessage"]}
{"id": "C77", "title": "A Success answer has a signature for every message", "statement": "A KeySign answer with status Success contains exactly one signature for each message of the request, in the order of the signed messages.", "quantifier": "all requests, all interleavings of receiving and generating signatures", "why_tests_cant": "depends on what other nodes send and when", "anchors": ["tss/keysign.go:KeySign", "tss/keysign.go:batchSignatures", "keysign/notifier.go:ProcessSignature"]}
{"id": "C78", "title": "A node tells the others that its key generation is done only after storing its share", "statement": "The message that tells the other members that this node has finished its key generation is sent only after the share was stored.", "quantifier": "all executions and fault points of the storage", "why_tests_cant": "fault points", "anchors": ["keygen/tss_keygen.go:processKeyGen", "common/tss_helper.go:NotifyTaskDone"]}
{"id": "C79", "title": "A key that Keygen reported can be used for signing", "statement": "After Keygen answered Success with a pool key, a KeySign request for this key passes all checks before the party is formed and uses the members of the key generation, unless its messages, version or number of signers are at fault.", "quantifier": "all executions of Keygen, all later requests", "why_tests_cant": "two calls connected by the disk, for all requests", "anchors": ["tss/keygen.go:Keygen", "tss/keysign.go:KeySign", "storage/localstate_mgr.go:SaveLocalState", "storage/localstate_mgr.go:GetLocalState"]}
{"id": "C80", "title": "Every Keygen call counts once in the metrics", "statement": "A Keygen call that returned has counted exactly once, as a success if and only if it answered Success, and the forming of its party has counted exactly once.", "quantifier": "all requests with canonical keys, all executions", "why_tests_cant": "all outcomes", "anchors": ["tss/keygen.go:Keygen", "monitor/metric.go:UpdateKeyGen", "monitor/metric.go:KeygenJoinParty"]}
{"id": "C81", "title": "A key generation does not damage the shares of other keys", "statement": "Whatever happens in a key generation, also when writing fails half-way, every stored share of another pool key reads as before.", "quantifier": "all executions and fault points of the storage, all other keys", "why_tests_cant": "fault points", "anchors": ["tss/keygen.go:Keygen", "storage/localstate_mgr.go:SaveLocalState"]}
{"id": "C82", "title": "A Keygen request does not crash the node", "statement": "No Keygen request and no behaviour of the other members makes the node panic.", "quantifier": "all requests and executions", "why_tests_cant": "all executions", "anchors": ["tss/keygen.go:Keygen", "keygen/tss_keygen.go:GenerateNewKey", "common/tss.go:processTSSMsg"]}
{"id": "C83", "title": "The recovery export file is written exactly on request and contains an encrypted key", "statement": "tss-recovery writes a file exactly when an export path and a password of at least 8 bytes are given, it is the file named on the command line, and it contains an encrypted key.", "quantifier": "all command lines, share files and random sources", "why_tests_cant": "All inputs including failures of the random source.", "anchors": ["cmd/tss-recovery/tss-recovery.go:main", "cmd/tss-recovery/key.go:exportKeyStore"]}
{"id": "C84", "title": "A node starts exactly when it can", "statement": "Starting a node succeeds exactly when its settings are usable and either no bootstrap peer is known or one is reached within five attempts and answers; it never panics.", "quantifier": "all settings, files on disk and connection outcomes of all attempts", "why_tests_cant": "All outcome vectors over all attempts.", "anchors": ["tss/tss.go:NewTss", "p2p/communication.go:Start", "p2p/communication.go:connectToBootstrapPeers"]}
{"id": "C85", "title": "Known peers survive a restart", "statement": "A restarted node uses the bootstrap peers of the command line and the saved address book; a missing or damaged address book does not keep it from starting.", "quantifier": "all settings, address books and crash points while the book is written", "why_tests_cant": "All crash points.", "anchors": ["tss/tss.go:NewTss", "storage/localstate_mgr.go:RetrieveP2PAddresses", "storage/localstate_mgr.go:SaveAddressBook"]}
{"id": "C86", "title": "Stopping a node is safe", "statement": "A started node can be stopped, and stopping it again does no harm.", "quantifier": "all nodes and histories of stops", "why_tests_cant": "All histories.", "anchors": ["tss/tss.go:Stop", "p2p/communication.go:Stop"]}
{"id": "C87", "title": "A broadcast message is written once to each addressed peer and to nobody else", "statement": "Every message a session hands over for broadcast is written, as one whole frame on a fresh stream, exactly once for each entry of its list of receivers, except to the node itself; no stream is opened to any other peer and no stream carries anything else.", "quantifier": "all histories of broadcasts, processing, writer outcomes, stops and other events of a node", "why_tests_cant": "the queue, the loop and one goroutine per receiver interleave in any order and each write may fail; tests see one order", "anchors": ["p2p/communication.go: Broadcast, broadcastToPeers, writeToStream, connectToOnePeer, ProcessBroadcast"]}
{"id": "C88", "title": "An incoming message reaches exactly the session subscribed for its type and id", "statement": "Every readable message that arrives on a stream while a session is subscribed for its type and id is passed to that session exactly once, whole, with the identity of the peer at the other end; any other stream delivers nothing; a session never receives anything else.", "quantifier": "all histories of streams from any peers, subscriptions, cancellations, handler and session steps of a node", "why_tests_cant": "routing depends on the subscriptions at the time of arrival, and handlers, channels and sessions run concurrently", "anchors": ["p2p/communication.go: readFromStream, handleStream, getSubscriber, SetSubscribe, CancelSubscribe"]}
{"id": "C89", "title": "Between honest nodes messages are authentic, unaltered and not duplicated", "statement": "In a network with any number of honest nodes and arbitrary other nodes, whatever a session receives in the name of an honest peer was handed over by a session of that peer, addressed to this node, under the same type and session id and with the same bytes, and it is received at most as often as it was handed over.", "quantifier": "all networks, all histories of honest nodes, all behaviours of other nodes, all ways the transport cuts, delays, reorders and truncates streams", "why_tests_cant": "needs a global invariant over sender, network and receiver; a test runs a few nodes in one schedule", "anchors": ["p2p/communication.go: ProcessBroadcast, writeToStream, readFromStream", "p2p/stream_helper.go: WriteStreamWithBuffer, ReadStreamWithBuffer"]}
{"id": "C90", "title": "Releasing a session resets all of its streams and no others", "statement": "When the streams of a session are released, every stream the node opened for a message of the session and every stream that arrived with one is reset, together with those that carried nothing readable; streams of other sessions are not.", "quantifier": "all histories of a node's communication layer", "why_tests_cant": "streams are filed by concurrent writers and readers before and after the release", "anchors": ["p2p/communication.go: writeToStream, readFromStream, ReleaseStream", "p2p/stream_helper.go: AddStream, ReleaseStream"]}
{"id": "C91", "title": "The goroutine that handles an incoming stream ends", "statement": "Once a message has been read from a stream, the goroutine that handles it comes to its end: it does not wait for ever for a session.", "quantifier": "all histories of a node's communication layer, including those after the session has ended", "why_tests_cant": "a leak shows only when more messages than the channel holds arrive around the end of the session", "anchors": ["p2p/communication.go: readFromStream", "common/tss.go:NewTssCommon"]}
{"id": "C92", "title": "A timeout blames exactly the silent members, if they are few enough", "statement": "When key generation or signing times out, the blame contains those already blamed, the members that delivered no unicast message of the last unicast round reached (if there are at most t of them, t the threshold of the committee, and if anybody delivered one), and the members whose broadcast of the last round was not confirmed (if anybody's was); only if that yields nobody, the members whose share is missing in the first incomplete round (again at most t). The unicast flag is set iff unicast silence or a unicast share is blamed, and the reason becomes 'Tss timeout' only if unicast silence is blamed and no reason was there.", "quantifier": "all committees, histories of received and produced messages, and map iteration orders", "why_tests_cant": "ranges over all histories and visiting orders", "anchors": ["keygen/tss_keygen.go:processKeyGen", "keysign/tss_keysign.go:processKeySign", "conversion/conversion.go:GetPreviousKeySignUicast", "blame/policy.go:GetUnicastBlame", "blame/policy.go:GetBroadcastBlame", "blame/policy.go:TssMissingShareBlame"]}
{"id": "C93", "title": "Peers are told that the task is done exactly when the result is there", "statement": "A signing run tells the peers that its task is done iff it ends with all requested signatures; a key generation run iff the local party delivered its key share while the run was going on.", "quantifier": "all histories of a run", "why_tests_cant": "ranges over all interleavings of outputs, inputs, timeouts and stops", "anchors": ["keysign/tss_keysign.go:processKeySign", "keygen/tss_keygen.go:processKeyGen"]}
{"id": "C94", "title": "A session is set up for exactly the members of its party", "statement": "When the members of the party for a key generation or a signing request are fixed, with distinct well-formed keys and the node among them, the session is run with exactly these members in the order of their keys, the node knows each other member under one peer id, waits for each of the others and for nobody else, sends its messages to the peers of the others, and (signing) runs one separate local party for each message. A member's silence in a session so set up is blamed as C92 says.", "quantifier": "all parties of distinct canonical keys, all visiting orders of maps", "why_tests_cant": "ranges over all parties and orders", "anchors": ["keygen/tss_keygen.go:GenerateNewKey", "keysign/tss_keysign.go:SignMessage", "conversion/conversion.go:GetParties,SetupPartyIDMap,SetupIDMaps,GetPeersID"]}
{"id": "C95", "title": "A signing node announces its result to the pool at most once and truthfully", "statement": "An accepted signing request makes the node announce at most one thing, to the peers of all members of the pool and nobody else: the signatures of its answer if it answers Success with signatures it generated, a failure if its attempt failed. It never announces both. (Exceptions in which a Fail is not announced: the pool keys have no peers; a member of the formed party has no key.) At most one party formation is counted.", "quantifier": "all requests, and all interleavings of join, session, received notifications and ends of the two goroutines", "why_tests_cant": "ranges over all schedules of three goroutines", "anchors": ["tss/keysign.go:generateSignature", "tss/keysign.go:KeySign"]}
{"id": "C96", "title": "Signatures announced by one node become the answer of every waiting member", "statement": "If a node answers a signing request with valid signatures it generated, every other member of the pool is sent one and the same notice, the node itself none; a member that processes the same request and still waits (and has no second wait for it) stops waiting when the notice arrives, and its answer is then the same as the first node's, whatever else happens. A notice of failure changes nothing at the receiver.", "quantifier": "all requests, all histories of both nodes, all lawful encodings", "why_tests_cant": "two nodes with arbitrary histories", "anchors": ["keysign/signature_notifier.go:broadcastCommon,sendOneMsgToPeer,handleStream,WaitForSignature", "tss/keysign.go:waitForSignatures"]}
{"id": "C97", "title": "Honest nodes agree on the party if the leader is honest", "statement": "When nodes are given the same request (same keys in any order, same message, height and threshold) of a version with leaders, and the elected leader is honest, then every honest node whose party forming ends without error reports exactly the list that the leader reports; that list has threshold + 1 different members of the committee, contains the leader, and each honest one of them takes part. The nodes may still differ in whether they fail: the leader may have formed a party with a member that reports a failure.", "quantifier": "for every committee, set of honest nodes, behaviour of the other nodes, order, delay, loss and cutting of the messages, and every visiting order of maps", "why_tests_cant": "a test runs one schedule on a working network with co-operating nodes", "anchors": ["p2p/party_coordinator.go:joinPartyLeader,joinPartyMember,HandleStreamWithLeader", "tss/tss.go:joinParty"]}
{"id": "C98", "title": "Nobody fails to form a party without cause", "statement": "An honest leader that reads, before it decides, the whole requests of at least threshold other members and is not told that the signature is there forms the party. An honest member that reads an honest leader's verdict before its own call returns and is not told that the signature is there reports the leader's party.", "quantifier": "for every schedule, every behaviour of the other nodes, every cutting of the streams into chunks", "why_tests_cant": "needs all interleavings of timeouts, arrivals and wake-ups", "anchors": ["p2p/party_coordinator.go:joinPartyLeader,joinPartyMember,processReqMsg,processRespMsg"]}
{"id": "C99", "title": "Forming a party without a leader", "statement": "With a version without leaders, an honest node reports itself and members of the committee only, each once, and every honest node it reports takes part; it reports no error exactly if it reports the whole committee; and if it reads everybody's request before it returns it does so. Two nodes may differ: one may have formed the party while another reports a timeout.", "quantifier": "for every committee without repetitions, schedule, and behaviour of the other nodes", "why_tests_cant": "a test runs one schedule with all nodes up", "anchors": ["p2p/party_coordinator.go:JoinPartyWithRetry,HandleStream", "tss/tss.go:joinParty"]}
{"id": "C100", "title": "What a node writes to form a party, and to whom", "statement": "With a leader, a member writes only its request, only to the leader, and nothing after its call has returned; the leader writes only the verdict it returns, only to other members of the committee, and tries each of them exactly once. Without a leader a node writes only its request and only to the other members. What reaches a stream is the frame of that message or a beginning of it.", "quantifier": "for every history of a network, and every outcome of opening and writing streams", "why_tests_cant": "tests do not observe streams to peers that must not get one", "anchors": ["p2p/party_coordinator.go:sendResponseToAll,sendRequestToLeader,sendRequestToAll,sendMsgToPeer"]}
{"id": "C101", "title": "The streams used to form a party are reset on release", "statement": "When the streams of a message id are released, every stream opened to form that party and every stream that arrived with a join message of that id, or with nothing readable, has been reset; and no stream is reset otherwise.", "quantifier": "for every history of a node", "why_tests_cant": "the set of streams depends on the history of all peers", "anchors": ["p2p/party_coordinator.go:HandleStream,HandleStreamWithLeader,sendMsgToPeer,ReleaseStream", "p2p/stream_helper.go:StreamMgr"]}
{"id": "C102", "title": "A share attributed to an honest member was produced by it", "statement": "In a network with honest nodes and arbitrary others who do not forge signatures, every share that an honest node hands to its local parties out of a message of an honest member was produced in this session by the local parties of that member, with the same bytes, for the same party, naming the same sender and as broadcast or unicast just as it is handed over.", "quantifier": "every network, every set of honest nodes, every history of outputs, deliveries and messages of the others", "why_tests_cant": "The others may send anything, replay anything and answer requests with anything; shares pass through batching, signing, voting and answers of third nodes", "anchors": ["common/tss.go:ProcessInboundMessages,processTSSMsg,sendBulkMsg,ProcessOutCh", "common/tss_helper.go:verifySignature,generateSignature"]}
{"id": "C103", "title": "Without faults no share is lost and nobody is blamed", "statement": "In a session whose members are honest, produce proper shares and accept those of the others, no node panics, blames anybody or has a share refused, in whatever order messages arrive and shares are produced; whenever no message is on its way, every share produced for a member, unless held back until its message is full, has been handed to the local parties of that member.", "quantifier": "every committee, every batch size, every order of outputs and deliveries, every iteration order", "why_tests_cant": "The orders in which shares, confirmations, requests and answers of all members can arrive are too many to test", "anchors": ["common/tss.go:ProcessOutCh,sendBulkMsg,ProcessInboundMessages,processTSSMsg,processVerMsg,applyShare,requestShareFromPeer,hashCheck"]}
{"id": "C104", "title": "The exchange of messages ends", "statement": "In a session without faults, once the local parties wait for shares, the number of messages that can still arrive, including the confirmations, requests and answers they cause, is bounded; the network can be emptied, and then every member has every share produced for it, and nobody has been blamed.", "quantifier": "every state reached by a session without faults, every order of deliveries", "why_tests_cant": "Termination of an exchange in which messages cause further messages is not a property of any one run", "anchors": ["common/tss.go:processTSSMsg,processVerMsg,requestShareFromPeer,processRequestMsgFromPeer,receiverBroadcastHashToPeers"]}
{"id": "C105", "title": "All members learn that all are done, and not before", "statement": "In a session without faults a member regards the task as finished by all only after every other member has reported that it is done; when all have reported and no message is on its way, every member does.", "quantifier": "every history of a session without faults", "why_tests_cant": "Depends on the order of reports and other messages of all members", "anchors": ["common/tss.go:ProcessOneMessage", "common/tss_helper.go:NotifyTaskDone"]}
{"id": "C106", "title": "A share reaches only the member it was produced for", "statement": "A share produced for one member is never handed to the local parties of another member.", "quantifier": "every network, every history", "why_tests_cant": "Requires considering what other nodes do with what they receive", "anchors": ["common/tss.go:processTSSMsg,updateLocal,sendBulkMsg"]}
{"id": "C107", "title": "The error of a failed key generation names what happened", "statement": "If Keygen returns an error, its text tells the reason: no message id only if every key of the request is empty; a party error only if a key cannot be decoded or the node's own key is not in the request; missing pre-parameters only if there are none; and an error of the session - failed start, exit signal, timeout before any message was produced, timeout, message that cannot be sent, unusable public key, failed write of the share - exactly when the first decisive event of that session was of this kind.", "quantifier": "all requests, all histories of the join and of the session, all storage faults", "why_tests_cant": "The first decisive event among many concurrent ones decides; tests see a few orders.", "anchors": ["keygen/tss_keygen.go:processKeyGen", "keygen/tss_keygen.go:GenerateNewKey", "tss/keygen.go:Keygen"]}
{"id": "C108", "title": "A node that reports the result of a ceremony has sent everything the others need from it", "statement": "When Keygen or KeySign reports a result, every protocol message that the node's own parties produced in the ceremony has been handed to the network for its receivers.", "quantifier": "all orders in which the loop finds messages and results of its parties, all outputs", "why_tests_cant": "The loop chooses at random between a waiting message and a waiting result; a test sees one choice.", "anchors": ["keygen/tss_keygen.go:processKeyGen", "keysign/tss_keysign.go:processKeySign", "keygen/tss_keygen.go:GenerateNewKey", "keysign/tss_keysign.go:SignMessage"]}
{"id": "C109", "title": "A ceremony returns, and goes on answering until the others are done", "statement": "A key generation or signing session returns with success only after its own result is there, its parties are started and either all other members have reported their end or five seconds have passed; until then every message of a peer is processed in order. It returns with an error only after its loop failed; the loop blames a party that did not start only when one did not, and when it is told to stop or its time is up it fails at once, whatever waits in its channels. The results of its parties are never lost on the way. Once the loop has ended and the parties are started it does return, and after a return with success nothing of the session changes any more.", "quantifier": "all interleavings of the goroutines of the call, all messages, all histories", "why_tests_cant": "Interleavings of three goroutines and a timer.", "anchors": ["keygen/tss_keygen.go:GenerateNewKey", "keysign/tss_keysign.go:SignMessage", "common/tss.go:ProcessInboundMessages"]}
{"id": "C110", "title": "A node that announces itself for a ceremony receives its messages", "statement": "From before a Keygen or KeySign call announces itself to its peers until it begins to clean up, each message of its ceremony that reaches the node is given to this call.", "quantifier": "all interleavings of any number of concurrent Keygen and KeySign calls", "why_tests_cant": "Interleavings of concurrent calls.", "anchors": ["tss/keygen.go:Keygen", "tss/keysign.go:KeySign", "p2p/communication.go:SetSubscribe", "p2p/communication.go:CancelSubscribe", "p2p/communication.go:readFromStream"]}
{"id": "C111", "title": "Joining a party ends within the configured time", "statement": "A node that tries to join a ceremony waits at most the configured party timeout for the others, whatever they send, and then returns: as a member, as the leader, and with the leaderless protocol.", "quantifier": "all histories of messages, notices and timers of a join call, with their times; all timeouts", "why_tests_cant": "The timer is created inside the select of a loop, so each turn of the loop starts it anew; which events cause a turn is a matter of all histories.", "anchors": ["p2p/party_coordinator.go:joinPartyMember", "p2p/party_coordinator.go:joinPartyLeader", "p2p/party_coordinator.go:JoinPartyWithRetry"]}
{"id": "C112", "title": "The nodes of a ceremony agree on what they are doing", "statement": "When the members of a party, formed under an honest leader, start to sign, or when the owners of the requested keys start to generate a key, they all run the same session: the same members with the same numbers, keys and peers, the same message id, the same local parties; each sends to all the others, and each accepts the signatures of the others. This holds although every node derives all of this by itself, from its own request and from what the leader told it.", "quantifier": "all parties and numbers of members, all orders in which the keys are listed and maps are visited, all histories of the network while the party forms", "why_tests_cant": "Agreement of all members for all visiting orders of maps and all message orders; a test runs a few nodes with a few orders.", "anchors": ["conversion/conversion.go:GetParties", "conversion/conversion.go:SetupIDMaps", "keygen/tss_keygen.go:GenerateNewKey", "keysign/tss_keysign.go:SignMessage", "p2p/party_coordinator.go:JoinPartyWithLeader", "tss/keysign.go:generateSignature"]}
{"id": "C113", "title": "Stopping a node ends its sending", "statement": "Stop comes to its end after at most the end of the writes that are already running when the sending loop has seen the stop; once it has returned, the node writes nothing to any stream, whatever sessions still hand over for sending.", "quantifier": "all histories of the communication layer, all interleavings, all outcomes of writes", "why_tests_cant": "Needs every interleaving of the stop with the loop and the writing goroutines.", "anchors": ["p2p/communication.go:Stop", "p2p/communication.go:ProcessBroadcast", "p2p/communication.go:broadcastToPeers"]}
{"id": "C114", "title": "A pool key is the generated point, and every later check accepts it", "statement": "The key text made for a point of secp256k1 carries the compressed form of exactly that point: parsing it gives the point back, different points have different texts, and a missing point or coordinates beside the curve get no key. CheckKeyOnCurve accepts exactly the texts that carry a compressed or uncompressed form of a point of the curve and answers every other text with an error, never with false. Hence the pool key of a successful Keygen names the point of the stored share, and Keygen never fails to store a share because of the key itself.", "quantifier": "all points and coordinates, all key texts, all executions of Keygen", "why_tests_cant": "The field has 2^256 elements; that a compressed point can be recovered needs the primality of the field's modulus, not samples.", "anchors": ["conversion/conversion.go:GetTssPubKey", "conversion/conversion.go:isOnCurve", "conversion/key_provider.go:CheckKeyOnCurve", "storage/localstate_mgr.go:getFilePathName", "keygen/tss_keygen.go:processKeyGen"]}
{"id": "C115", "title": "Keys, key texts and peer ids determine each other", "statement": "Every compressed key of 33 bytes has one lower-case bech32 text, and decoding the text gives the key back; a text that decodes is the text of its key, all in lower case or all in capitals, and two texts decode to the same key exactly if they agree up to case. For every key of the curve the peer id derived from a key text gives back that text in lower case, and a key taken out of a peer id leads back to that peer id. An accepted pool key never contains a character that has a meaning in file names.", "quantifier": "all 33-byte keys, all texts, all peer ids", "why_tests_cant": "2^256 keys and all texts up to the length limit; the checksum and the regrouping of bits are easy to get wrong at the ends.", "anchors": ["conversion/key_provider.go:GetPeerIDFromPubKey", "conversion/key_provider.go:GetPubKeyFromPeerID", "conversion/key_provider.go:CheckKeyOnCurve", "conversion/bech32.go:SetupBech32Prefix", "conversion/conversion.go:GetTssPubKey"]}
{"id": "C116", "title": "A key is treated by its value, not by its spelling", "statement": "Every text the node accepts as a pool key finds the share stored for the key it stands for, and a node whose key is named in a request in any accepted spelling takes part in it.", "quantifier": "all accepted spellings of a key, all stored keys, all requests", "why_tests_cant": "Accepted spellings are not enumerated by tests; the comparison of texts is spread over storage, party set-up and message ids.", "anchors": ["storage/localstate_mgr.go:GetLocalState", "storage/localstate_mgr.go:getFilePathName", "conversion/conversion.go:GetParties", "conversion/key_provider.go:CheckKeyOnCurve"]}
{"id": "C117", "title": "The locks of a node cannot block each other for ever", "statement": "Whatever calls of key generation, signing, joining, stream handling and share processing run at the same time, and however they are scheduled: as long as one of them has something left to do, one of them gets the lock it needs (also if a waiting writer keeps new readers out), every schedule that cannot be continued has finished all of them, and none releases a lock it does not hold.", "quantifier": "any number of goroutines, any sequence of calls with any branches in each of them, all schedules", "why_tests_cant": "a deadlock needs one particular interleaving of several goroutines; tests see a few", "anchors": ["tss/keygen.go:Keygen", "p2p/communication.go:SetSubscribe, getSubscriber, CancelSubscribe", "p2p/stream_helper.go:AddStream, ReleaseStream", "p2p/party_coordinator.go", "p2p/peer_status.go", "keysign/signature_notifier.go", "common/tss.go", "common/local_cache_item.go", "blame/manager.go", "blame/policy.go", "blame/round_mgr.go", "blame/share_mgr.go", "blame/blame.go", "storage/localstate_mgr.go"]}
{"id": "C118", "title": "No map is accessed while another goroutine writes it", "statement": "In no schedule does a goroutine read or write one of the node's maps (subscribers, kept streams, join groups, answers of peers, signature notifiers, cached messages, confirmations, finished peers, accepted shares, stored and requested messages, unicast senders) while another one is about to write it, which the Go runtime would answer by ending the whole process.", "quantifier": "any number of goroutines, any sequence of calls, all schedules, all maps shared between goroutines", "why_tests_cant": "the crash needs two accesses at the same moment; tests rarely produce it", "anchors": ["p2p/communication.go", "p2p/stream_helper.go", "p2p/party_coordinator.go", "p2p/peer_status.go", "keysign/signature_notifier.go", "common/tss.go", "common/local_cache_item.go", "blame/manager.go", "blame/round_mgr.go", "blame/share_mgr.go", "blame/blame.go"]}
{"id": "C119", "title": "Nothing else is raced for either", "statement": "No other state shared between the goroutines of a node is accessed by one of them while another one writes it.", "quantifier": "any number of goroutines, any sequence of calls, all schedules, all shared state", "why_tests_cant": "a race needs two accesses at the same moment", "anchors": ["p2p/party_coordinator.go:joinPartyMember, processRespMsg", "tss/keygen.go:Keygen", "tss/keysign.go:generateSignature", "keygen/tss_keygen.go:processKeyGen", "keysign/tss_keysign.go:processKeySign", "p2p/stream_helper.go:ReleaseStream", "blame/policy.go:TssMissingShareBlame"]}
{"id": "C120", "title": "Honest members are not framed", "statement": "In a session in which some nodes are not honest but forge no signatures, every member whom an honest node blames while it processes messages is a member that is not honest. (False as it stands; it holds if messages of honest members reach honest nodes only as, and where, they were sent, nobody puts shares in the name of an honest member into messages of its own, at most one dishonest peer reports digests to a given node, and the local parties report culprits correctly. Each of these provisos can be broken without forging a signature, and each time an honest member is blamed.)", "quantifier": "every committee of any size, every set of dishonest nodes and whatever they send, every schedule of outputs, deliveries and workers", "why_tests_cant": "an attacker may send any bytes at any point of any session; a test tries a few", "anchors": ["common/tss.go:processTSSMsg, processVerMsg, applyShare, updateLocal, receiverBroadcastHash", "blame/blame.go:SetBlame", "blame/policy.go:TssWrongShareBlame"]}
{"id": "C121", "title": "Honest nodes of a session do not apply different broadcasts", "statement": "Two honest nodes of a session that apply broadcast messages of the same member for the same round apply the same message, if at most f members are dishonest, forge no signatures, and 2(t-1) > (n-1)+f for n members with threshold t. (False as it stands with a single dishonest member, who sends two messages to the same honest nodes: they confirm both. It holds if no honest node receives two different messages of one member for one round. For the shares of an honest member it holds without any condition on thresholds or on the other nodes.)", "quantifier": "every committee, every set of dishonest members and whatever they send, every schedule of deliveries", "why_tests_cant": "agreement must hold for every equivocation and every order of arrival", "anchors": ["common/tss.go:processTSSMsg, processVerMsg, applyShare, receiverBroadcastHash, getMsgHash"]}
{"id": "C122", "title": "A timeout blames the members that stopped", "statement": "In a session of honest members of which some stop at any point, a node that times out after everything the remaining members sent each other has arrived blames only members that stopped, and blames each that did not produce a message of the rounds asked about. (False as it stands: a member that keeps going but was not sent a message by the stopped one is behind the others and is blamed with it. It holds if no remaining member is behind, more members than the threshold remain, and some member misses one of the rounds asked about.)", "quantifier": "every committee, every set of members that stop and every point at which each of them stops, every schedule of outputs and deliveries, every order of map iteration, key generation and signing", "why_tests_cant": "a member can stop after any of its messages and any part of what it sent may arrive; a test fixes one point", "anchors": ["keygen/tss_keygen.go:processKeyGen", "keysign/tss_keysign.go:processKeySign", "blame/policy.go:GetUnicastBlame, GetBroadcastBlame, TssMissingShareBlame", "blame/manager.go:CheckMsgDuplication, SetLastUnicastPeer, SetLastMsg", "common/tss.go:ProcessOneMessage, processVerMsg, processTSSMsg"]}
{"id": "C123", "title": "An undisturbed ceremony succeeds at every member", "statement": "If the members of a key generation or signing run the code, nothing disturbs them (no timer fires, nobody is told to stop, encoding, signing and storing work, the local protocol engines produce and accept proper messages), then at every moment no call has crashed or failed, nobody is blamed and no share is refused; and once the engines have done what they can and nothing is on its way or waiting to be taken, every member has the result: all have the signatures, or all have stored their share and return its key. (The second part is false as it stands: a call takes the last result of its engines before their last messages, returns, and another member waits for these until its time is up. It holds if no call that returned left messages of its engines behind.)", "quantifier": "every committee, every number of messages to sign, every number and kind of rounds, every interleaving of the calls, channels and deliveries, every order of map iteration", "why_tests_cant": "success depends on the interleaving of all goroutines of all members; a test runs a few interleavings of a few members", "anchors": ["keygen/tss_keygen.go:GenerateNewKey, processKeyGen", "keysign/tss_keysign.go:SignMessage, processKeySign", "tss/keygen.go:Keygen", "common/tss.go:ProcessOneMessage, processVerMsg, processTSSMsg, ProcessOutCh, sendBulkMsg, ProcessInboundMessages", "common/tss_helper.go:NotifyTaskDone"]}
{"id": "C124", "title": "The command line means what its settings say", "statement": "The service starts with exactly the settings written on its command line: of every flag the last value given, all peers in their order, documented defaults for the rest; a value that cannot be read, an unknown flag or a missing value is refused; and nothing that was given is silently ignored. (The last part is false: the first argument that is no flag ends the reading, so that '-pretty-log true -home /data' starts a node that does not use /data. The time a join waits cannot be set at all.)", "quantifier": "every list of arguments, every spelling of settings, every meaning of durations, numbers and addresses", "why_tests_cant": "a test tries a few command lines; what is ignored shows only for particular orders and spellings", "anchors": ["cmd/tss/main.go:parseFlags, main", "common/types.go:TssConfig", "p2p/party_coordinator.go:NewPartyCoordinator"]}
{"id": "C125", "title": "A new attempt at a ceremony is not influenced by earlier ones", "statement": "When a ceremony is tried again with the same request, shares and reports of an earlier attempt have no effect on the new one: every share applied from an honest member was produced by it in this attempt, and nobody is blamed for what was sent in another. (False: the message id depends on the request alone and the signatures cover nothing else of the attempt, so a share still on its way is applied in the new attempt, displaces the proper one, or has its honest sender blamed, and late reports of completion count. A share applied comes from this or an earlier attempt of its sender; and if nothing is on its way when all begin again, the attempt goes as if it were the first.)", "quantifier": "every committee, every number of attempts, every set of dishonest nodes, every schedule, every moment at which each node begins again", "why_tests_cant": "late messages of an earlier attempt arrive at arbitrary moments of the next; a test would need to control delays across attempts", "anchors": ["tss/tss.go:requestToMsgId", "tss/keygen.go:Keygen", "tss/keysign.go:KeySign", "common/tss.go:updateLocal, ProcessOneMessage", "common/tss_helper.go:generateSignature, verifySignature"]}
{"id": "C126", "title": "Joining again, or twice at once, for the same request", "statement": "Each call that forms a party is given every message that arrives for its request while it waits, whatever other calls the node makes or has made, and what a member returns is what the leader announced in the call that goes with it. (False: a second call for the same request takes the place of the first, which then hears of nobody; a returning call without leader removes the group of the other; and a verdict of an earlier attempt that arrives late is taken for that of the present one, so that honest nodes end with different parties, or with the list of a failed attempt as a success. Every call behaves as if it were alone, with some of the messages for its request that arrived after it began, each at most once; with all of them if no other call for the same request overlaps with it; and a party that is returned was announced by an honest leader for this request, in some attempt.)", "quantifier": "every number of calls of a node, one after the other or at once, every history of messages and timers, every interleaving of handlers, any set of dishonest nodes", "why_tests_cant": "calls overlap and late verdicts arrive at arbitrary moments; tests run one call per node", "anchors": ["p2p/party_coordinator.go:createJoinPartyGroups, removePeerGroup, processRespMsg, processReqMsg, HandleStream, joinPartyMember, joinPartyLeader, JoinPartyWithRetry", "tss/tss.go:requestToMsgId, joinParty"]}
{"id": "C127", "title": "A peer id and its text stand for each other, and every key has the peer id that libp2p gives it", "statement": "A peer id has exactly one base58 text, the one the node prints; different peer ids have different texts; the text of a peer id is read back as this peer id, and a text that is read as base58 is the text of what is read. The peer id of a key that passes the check of keys is libp2p's: the identity multihash of the protobuf message with key type Secp256k1 and the key. Its text begins with 16Uiu2HA and has 53 letters, and from it the node gets the text of the key again, in lower case. Two keys have the same peer text only if they are the same key. So the places that compare, sort and exchange texts of peers (blame, join, routing) never confuse two nodes.", "quantifier": "all byte strings, all texts, all keys on the curve, all peer ids of both kinds (short keys, hashes of long keys)", "why_tests_cant": "a test checks some peer ids; that no two peers ever share a text, whatever their keys, is a statement about all of them", "anchors": ["conversion/key_provider.go:GetPeerIDFromPubKey, GetPubKeyFromPeerID", "p2p/party_coordinator.go:getPeerIDs", "blame/policy.go:NodeSyncBlame"]}
{"id": "C128", "title": "The service answers what it has read and ends when told", "statement": "A request that the service has read is answered, once, before the process ends. After SIGINT or SIGTERM the service takes no new connections, lets the requests that are being handled finish, for ten seconds at most, stops the node exactly once, and the process ends. Without signal it goes on and serves requests.", "quantifier": "all histories of connections, requests, answers, panics of handlers, signals, times and schedules of the main goroutine, the server goroutine and the handlers", "why_tests_cant": "whether a request is cut off depends on when the signal comes, how long each handler runs and what the other connections do", "anchors": ["cmd/tss/main.go:main", "cmd/tss/tss_http.go:Start, Stop, NewTssHttpServer"]}
{"id": "C129", "title": "Texts of versions", "statement": "The version in a request is accepted exactly if it is a semantic version (three decimal numbers below 2^64 without leading zeros, optional pre-release identifiers behind '-', optional build metadata behind '+'); every version has such a text, and two texts of one version differ in the build metadata only. A node joins with a leader exactly if the text denotes a version from 0.14.0 on (pre-releases of 0.14.0 itself are not), joins without a leader for every other version, and fails for every other text. Nodes given texts of the same version, with whatever metadata, use the same protocol.", "quantifier": "all texts; all versions with numbers below 2^64", "why_tests_cant": "The texts are unbounded and the borders (leading zeros, 2^64, pre-releases of the gate version, metadata) are many; a test tries a few texts.", "anchors": ["conversion/tss_helper.go:VersionLTCheck", "messages/version.go:NEWJOINPARTYVERSION", "tss/tss.go:joinParty"]}
{"id": "C130", "title": "The bytes of join messages and notices", "statement": "What a node writes as a join request, as a message of the leader protocol or as a notice with signatures is read by every node as exactly that message (a signature field that is present but empty is read as absent). Bytes are accepted exactly if they are a message in the protobuf encoding whose texts are valid UTF-8; fields with unknown numbers and the order of different fields make no difference. All bytes accepted as a message of the leader protocol are also accepted as a request for the same ceremony, so that nodes of both protocols can tell which ceremony a message belongs to.", "quantifier": "all messages up to 4 GiB; all byte strings", "why_tests_cant": "The values are unbounded and the accepted byte strings (long varints, repeated fields, unknown fields, groups, invalid texts) are infinitely many; a test tries a few encodings.", "anchors": ["messages/join_party.pb.go:JoinPartyRequest, JoinPartyLeaderComm", "messages/signature_notifier.pb.go:KeysignSignature", "p2p/party_coordinator.go:HandleStream, HandleStreamWithLeader, sendMsgToPeer", "keysign/signature_notifier.go:sendOneMsgToPeer, handleStream"]}
{"id": "C131", "title": "Texts of messages to sign", "statement": "A message in a request is read exactly if its text, without line ends, is base64 of some bytes (the bits added at the end are not looked at). Every message has exactly one text without line ends whose added bits are zero; that text is the one answers use, so that a client that uses it finds its own text in the answer, and two different messages never share a text. Requests for the same messages by the same signers lead to the same ceremony.", "quantifier": "all texts; all byte strings; all lists of messages", "why_tests_cant": "The texts are unbounded; that no second text of a message is accepted, or leads elsewhere, is a statement about all texts.", "anchors": ["tss/keysign.go:KeySign, batchSignatures", "keysign/request.go:Request", "tss/tss.go:requestToMsgId"]}
{"id": "C132", "title": "Which bytes are JSON, and what they say", "statement": "Bytes from a peer or a client are taken as JSON exactly if their characters are one JSON value with white space around it, as the grammar of JSON has it (bytes that are not UTF-8 count as U+FFFD, escaped halves of a surrogate pair without the other half too), and then they say exactly one value, however deep it is. A request is read from the first value in its body, exactly if some prefix of the body is a value that ends there. A text a node writes between quotes is a JSON string that says that text, whatever characters it has.", "quantifier": "all byte strings; all texts; all values of any depth", "why_tests_cant": "A test checks some texts; a parser that takes one more or one less text than the grammar, or gives another value for some nesting or escape, is found only by quantifying over all texts.", "anchors": ["common/tss.go:ProcessOneMessage, ProcessInboundMessages, updateLocal", "p2p/communication.go:readFromStream", "cmd/tss/tss_http.go:keygenHandler, keySignHandler"]}
{"id": "C133", "title": "The messages of a session are read as they were written", "statement": "Every message a node of a session writes - the envelope with its type and message id, wire messages with any routing and round, confirmations, control messages, bulks of shares, the report that a task is done - is read by every other node as exactly that message: with the program's JSON the decoders read what the encoders write, for all texts, bytes and numbers of parties. The communication layer finds in the bytes the type and the message id a message was sent with. So what is proved of sessions of several nodes holds of sessions that exchange these bytes.", "quantifier": "all messages; all texts and byte strings in them; all sessions", "why_tests_cant": "Round trips must hold for every text (quotes, control characters, any Unicode), every byte string and every routing, and inside each other; tests try a few.", "anchors": ["messages/p2p_message.go:WrappedMessage, WireMessage, BroadcastConfirmMessage, TssControl, TssTaskNotifier", "common/tss.go:sendBulkMsg, broadcastHashToPeers, ProcessOneMessage, ProcessInboundMessages, updateLocal", "common/tss_helper.go:NotifyTaskDone, processRequestMsgFromPeer", "p2p/communication.go:readFromStream, ProcessBroadcast"]}
{"id": "C134", "title": "Which bytes from a peer are which message", "statement": "Bytes are read as a message of a kind exactly if they are the JSON text of an object (or null) whose members with the names of the fields, compared without regard to case, can be read in the order of the text; then each field is what these members say, and fields without a member are empty. A message of one kind is never taken for one of another kind, and no bytes crash the node. (The last two fail: every confirmation is read as an empty wire message and as an empty control message, and the other way around, so that the number in the envelope alone decides; and a wire message with a routing whose sender has no content crashes every session in every state.)", "quantifier": "all byte strings; all messages; all states of all sessions", "why_tests_cant": "Which of all byte strings are accepted, with repeated, missing, null and differently spelt members in any order, cannot be enumerated.", "anchors": ["messages/p2p_message.go:WrappedMessage, WireMessage, BroadcastConfirmMessage, TssControl, TssTaskNotifier", "common/tss.go:ProcessOneMessage, processTSSMsg", "common/tss_helper.go:processRequestMsgFromPeer"]}
{"id": "C135", "title": "Requests and answers of the HTTP service as texts", "statement": "A client who posts the JSON text of a key generation or signing request makes the node run exactly that request, once, and reads in the answer exactly what the node answered - keys, signatures, status and blame, whatever characters and bytes they have; indenting an answer does not change what it says. A body is read as a request exactly if it begins with the text of an object, or null, whose members for the fields can be read; what follows is not looked at, and a body without any of the names is run as the empty request. The member is_broadcast of a blame is true exactly if the blame is for a unicast message.", "quantifier": "all requests; all answers; all bodies", "why_tests_cant": "The texts are unbounded, and what a node does with bodies that are almost requests is a statement about all bodies.", "anchors": ["cmd/tss/tss_http.go:keygenHandler, keySignHandler", "keygen/request.go:Request", "keygen/response.go:Response", "keysign/request.go:Request", "keysign/response.go:Response, Signature", "blame/types.go:Blame, Node"]}
{"id": "C136", "title": "The files of key shares, with crashes at any byte", "statement": "What a node writes into the file of a key is read as exactly the share it saved, whatever numbers, points and texts it holds. After any history of saves, each of which may fail or be interrupted by a crash at any byte, a key reads as the share of the last save that opened its file if that save wrote all of it, and otherwise as an error: a file that was cut off anywhere is never taken for a share, and a node never reads a share it did not save under that key. (What C55 asks for, that the old share survives, fails at every byte; and what is read is not compared with the key that was asked for.)", "quantifier": "all shares; all histories of saves; all crash points", "why_tests_cant": "Crash points of all histories, for all contents; that no prefix of a file is a share is a statement about all prefixes of all files.", "anchors": ["storage/localstate_mgr.go:KeygenLocalState, SaveLocalState, GetLocalState, getFilePathName", "tss/keysign.go:KeySign", "keygen/tss_keygen.go:processKeyGen"]}
{"id": "C137", "title": "Signatures and keys on the curve", "statement": "A signature is accepted exactly if it is an ECDSA signature (r, s) of the message, as a number, for the point that the public key carries: for shares sent between nodes (where s must also be in the lower half) and for the signatures that a node waiting for a pool's signatures is served with. What a node signs with its private key is accepted under its public key, so that in a session nothing has to be assumed about signatures. Every key on the curve has exactly one private key. What the check cannot promise: with -s for s a signature is accepted as well, so an announcing node can change the signatures of those who wait; and as messages are not hashed, there are messages with valid signatures that nobody made.", "quantifier": "all keys, messages, private keys, nonces, and all histories of notifications", "why_tests_cant": "The statement is about all points and numbers of 256 bits; it needs the order of the curve's group.", "anchors": ["keysign/notifier.go:verifySignature, ProcessSignature", "common/tss_helper.go:generateSignature, verifySignature"]}
{"id": "C138", "title": "Recovery from the files that nodes wrote", "statement": "Given the key share files that members of a pool of up to four wrote, in any order, the recovery tool prints the private key of the pool and exactly the text of the pool's public key; the file it exports opens with the password, in a wallet that reads the file's own description of cipher and key derivation, and holds that private key. A missing file or one that a crash cut off gives no key. What the tool does not do: for pools of five or six the printed public key is never the pool's, and files of different pools are not told apart although they hold the public key: a key of neither pool is printed.", "quantifier": "all sharings, files, passwords, random values and cut points", "why_tests_cant": "All polynomials, all indices and all file contents; that the printed text is the pool's needs the arithmetic of the curve.", "anchors": ["cmd/tss-recovery/tool.go:getTssSecretFile, getTssPubKey", "cmd/tss-recovery/key.go:exportKeyStore, EncryptedKey", "cmd/tss-recovery/tss-recovery.go:main", "storage/localstate_mgr.go:SaveLocalState"]}
{"id": "C139", "title": "The answers of a signing are signatures of the messages asked for", "statement": "Every entry in the answer to a signing request, as a client of the HTTP service reads it, carries one of the messages of the request and an ECDSA signature of that message which is valid for the pool key of the request; no notification, whoever sends it, no message of a peer and no outcome of the party or of its session can make the answer contain anything else.", "quantifier": "every request, stored share, history of notifications before and during the call, outcome of the party, history of the session, and result of tss-lib that consists of signatures", "why_tests_cant": "Tests sign one message in one undisturbed run and compare the answer with a file; they do not cover what others can send, in which order results arrive, or which message an entry is paired with.", "anchors": ["tss/keysign.go:KeySign, batchSignatures, generateSignature, waitForSignatures", "keysign/notifier.go:verifySignature, ProcessSignature", "keysign/tss_keysign.go:SignMessage, processKeySign", "cmd/tss/tss_http.go:keySignHandler"]}
{"id": "C140", "title": "A pool key lives on: from its generation to its signatures", "statement": "When a key generation has answered Success, then after any further key generations of the node, whether they succeed, fail or are cut off by crashes and restarts, the node still holds exactly the share it got for that key (unless the very same key was generated again), takes up readable signing requests for it, and every signature in the answers to these requests is valid for the point that was generated.", "quantifier": "every sequence of key generation requests with their histories and crash points, every later signing request with its notifications and history", "why_tests_cant": "Tests generate one key in one undisturbed run and sign with keys from fixtures; they do not follow a key through files, restarts, other keys and signing.", "anchors": ["tss/keygen.go:Keygen", "tss/keysign.go:KeySign", "storage/localstate_mgr.go:SaveLocalState, GetLocalState", "conversion/conversion.go:GetTssPubKey"]}
{"id": "C141", "title": "Every message of a signing gets its own local party, and all of them are started", "statement": "A signing of several messages, equal ones included, has exactly one local party for each message, which signs the number of that message; the start of the parties returns only after each of them has been started or has failed, reports success exactly if none failed, and does return, without a panic, once they all have.", "quantifier": "every list of messages, every order in which the map of parties is visited, every interleaving of the goroutines and every outcome of the starts", "why_tests_cant": "A test signs one or two different messages with one schedule; equal messages, failing starts and the order of goroutines are left to chance.", "anchors": ["keysign/tss_keysign.go:startBatchSigning, SignMessage"]}
{"id": "C142", "title": "Saved peers are found again by the texts of their addresses", "statement": "The address book is a text file. After a restart the program gets from it exactly the peers and addresses which it saved (except loopback addresses): no address comes under another peer, none is lost, and no saved address keeps the node from starting. A node listens at, and announces, exactly the address it is configured with.", "quantifier": "all address books of addresses made of ip4, tcp, udp, dns, quic, ws, wss, p2p-circuit, p2p and unix components, visiting orders, peer ids, ports and external addresses", "why_tests_cant": "Texts of addresses are concatenated, divided at slashes and line breaks and read again; addresses come from other peers, so all texts must be considered.", "anchors": ["storage/localstate_mgr.go:SaveAddressBook, RetrieveP2PAddresses", "p2p/communication.go:NewCommunication, connectToBootstrapPeers, startChannel", "p2p/peer_address.go:ExportPeerAddress"]}
{"id": "C143", "title": "The started node is the one that was asked for", "statement": "The program runs a node exactly when the command line, the secret key that is typed in, the folder and the network allow it. The node then has the identity of the secret key: its public key belongs to it, and others compute its peer id from the public key; it listens at and announces the configured addresses, uses its folder, and tries the peers it saved before and those of the command line. Texts that are no secret key are refused.", "quantifier": "all command lines, texts typed in as secret key, folders, address books and network outcomes", "why_tests_cant": "The path from flags and a pasted secret to a libp2p identity goes through eight encodings; a wrong identity is noticed only when other nodes look for the node.", "anchors": ["cmd/tss/main.go:main, parseFlags", "tss/tss.go:NewTss", "storage/localstate_mgr.go:NewFileStateMgr", "p2p/communication.go:NewCommunication, startChannel", "conversion/key_provider.go:GetPriKey, GetPriKeyRawBytes"]}
{"id": "C144", "title": "Numbers and times on the command line", "statement": "The port given on the command line is the number that the text says in Go's notation (decimal, or binary, octal and hexadecimal with a prefix; a leading zero means octal), and texts that are no such number or do not fit are refused. A time limit is the sum of the amounts written one behind the other, with its sign, exactly if the amounts are whole nanoseconds and otherwise up to two nanoseconds each; texts without units (except 0), with unknown units or with sums beyond 63 bits are refused.", "quantifier": "all texts; all lists of amounts with any number of digits (for the rounding: up to 18 behind the point)", "why_tests_cant": "The readers go through overflow checks in loops, underscore rules and floating point; a limit that is read wrongly shows only when a ceremony is cut off too early.", "anchors": ["cmd/tss/main.go:parseFlags", "p2p/types.go:Config", "common/types.go:TssConfig"]}
{"id": "C145", "title": "Ids, leaders and digests are SHA-256, and only a collision of SHA-256 confuses them", "statement": "The digest that a node computes for the id of a request, for the election of a leader and for the confirmation of a broadcast message is the SHA-256 digest of FIPS 180-4, written as 64 small hexadecimal digits. Requests of different committees, or for different messages, have different ids, nodes elect the same leader, and honest nodes apply the same broadcast message (each under the conditions of C10, C08 and C30), unless the compression function of SHA-256 has a collision inside of the very texts that were hashed.", "quantifier": "all byte strings shorter than 2^61 bytes, all requests, all lists of peers, all histories of two nodes", "why_tests_cant": "a test knows the digests of a few texts; that different padding, block boundaries and lengths never confuse two texts, and that nothing but a collision can, is a statement about all of them", "anchors": ["common/tss_helper.go:MsgToHashString", "conversion/conversion.go:BytesToHashString", "p2p/leader_provider.go:LeaderNode", "tss/tss.go:requestToMsgId", "common/tss.go:hashCheck"]}
{"id": "C146", "title": "The pool address belongs to the pool key", "statement": "If Keygen returns Success, the pool address that it returns is the Binance Chain address (prefix bnb) of the 33 bytes in the pool key that it returns: the BIP-173 text of RIPEMD-160 of SHA-256 of the bytes. Everybody can compute it from the key, nodes that return the same key return the same address, every key has exactly one address, and an address text decodes to the 20 bytes and under no other prefix. Two keys share an address only if SHA-256 or RIPEMD-160 collides on them.", "quantifier": "all byte strings as keys, all runs of Keygen on all nodes, all results of the library", "why_tests_cant": "Money is sent to the address; that it always belongs to the key goes through two digests, a checksum over a field with 32 elements and every way Keygen can end, of which a test sees a vector or two.", "anchors": ["conversion/conversion.go:GetTssPubKey", "tss/keygen.go:Keygen", "keygen/response.go:Response"]}
{"id": "C147", "title": "Mistyped keys and addresses are refused", "statement": "If at most six consecutive characters of a key text, or any one to four characters of it, wherever they are, are replaced by others, the result is no key: committees, peers and pool keys given with it are errors, so a typing mistake never names another node or pool. The same holds for pool addresses. A key text is exactly the BIP-173 text of the five bytes of the encoding and the 33 bytes of the key.", "quantifier": "all key texts, all addresses, all replacements of characters by any characters in one row of up to six places or in any four places", "why_tests_cant": "There are millions of millions of texts with four changed characters for each key, and as many keys as points of the curve; detection is a property of a polynomial over a field.", "anchors": ["conversion/conversion.go:GetParties", "conversion/key_provider.go:CheckKeyOnCurve, GetPeerIDFromPubKey, GetPeerIDsFromPubKeys", "tss/keysign.go:KeySign", "keysign/request.go:Request"]}
{"id": "C148", "title": "The benchmark tools sign with the shares that were generated, and time only real signatures", "statement": "If the library works, the key generation tool comes to its end in whatever order the parties finish, and writes one file per party; the signing tool, told a quorum up to the number of parties, starts that many parties, each with its own share exactly as generated and at its place in the order of ids. Broadcast messages are handed to every other party once, others to the addressee alone. A signing counts only if the signature is an ECDSA signature of the number for the public key of the shares. The table has one row per quorum from the smallest to the largest, with the time of each run and the mean rounded down. Settings outside 2 <= quorum <= shares are refused before anything runs (false for the smallest quorum of the signing tool: zero and negative numbers are accepted, and the tool crashes or waits for ever).", "quantifier": "all sets of shares, orders of finishing, messages, quorums, runs, files and signatures", "why_tests_cant": "a unit test runs one small key generation in one order; that the files fit the parties must hold for every order and number of parties", "anchors": ["cmd/tss-benchgen/main.go:main, runKeyGen, tryWriteKeyGenDataFile, makeKeyGenDataFilePath", "cmd/tss-benchsign/main.go:main, runSign, loadKeyGenData, printSummary"]}
{"id": "C149", "title": "What a session keeps for its peers is bounded", "statement": "While a key generation or signing runs, the node keeps at most one entry for each broadcast that some message named, and so at most one for each message it was sent; if the messages speak only of the broadcasts of members and rounds, it keeps no more than there are of these. It keeps no more than that whatever its peers send (false: any peer, member or not, can make it keep as many entries as it likes, by confirming broadcasts with made-up names; the session goes on and nobody is blamed).", "quantifier": "all histories of messages and worker steps of a session, all peers, all lists of names", "why_tests_cant": "a test sends a few messages; the bound, and its failure, concern histories of any length", "anchors": ["common/tss.go:processVerMsg, checkDupAndUpdateVerMsg, processTSSMsg, applyShare, ProcessOneMessage"]}
{"id": "C150", "title": "The tools do what their command line says", "statement": "The recovery tool and the benchmark tools take each setting in any order and spelling, the last value of each, then the names of files; a line with an unknown setting or an unreadable number is refused before anything is read. The recovery tool, given the files of three members of a pool of at most four, writes the pool's key, encrypted with the password given, into the file given. Every word of an accepted line has its effect (false: settings written behind the first file name are taken for files, so that nothing is exported and nothing is said; and -n has no effect, C59).", "quantifier": "all command lines, all settings, all contents of files", "why_tests_cant": "a test tries some command lines; the claim is about all lists of words", "anchors": ["cmd/tss-recovery/tss-recovery.go:main", "cmd/tss-benchgen/main.go:main", "cmd/tss-benchsign/main.go:main"]}
{"id": "C151", "title": "A share that arrives while a timeout is being blamed", "statement": "While the members whose shares are missing are worked out, shares may still arrive. The blame is worked out from the ids recorded when the lists were copied, and a share that was accepted stays recorded: it counts as a duplicate when it comes again, and its sender is not named later (false: the blame appends its own id to a copied slice without the lock, and so overwrites, in the array both use, the id of a share accepted since the copying, or is overwritten by it while it reads).", "quantifier": "all interleavings of accepted shares with the steps of the blame, all rounds, all numbers of shares, all rules by which the runtime makes arrays", "why_tests_cant": "a test runs one interleaving; the damage depends on the order of a few instructions and on the room left in an array", "anchors": ["blame/policy.go:TssMissingShareBlame", "blame/manager.go:UpdateAcceptShare, CheckMsgDuplication", "blame/policy_helper.go:getBlamePubKeysNotInList"]}
{"id": "C152", "title": "The end of a session closes its own streams", "statement": "Whatever calls run at the same time, a stream reset by the release of a session was handed over before, for that session or for an unknown one: never the stream of another session; and what is retained for a session is changed only by calls for that session. A release closes all streams retained for its session and for unknown ones when it began, and none handed over is lost (false: the release appends the unknown streams to a slice the record still uses, without the lock, so that one of them is left out, or a stream just handed over is overwritten).", "quantifier": "all interleavings of any number of AddStream and ReleaseStream calls, step by step, all ids, all rules by which the runtime makes arrays", "why_tests_cant": "a test runs a few interleavings; whether an array is shared depends on the room left in it", "anchors": ["p2p/stream_helper.go:ReleaseStream, AddStream"]}
