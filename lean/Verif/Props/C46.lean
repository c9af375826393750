import Verif.Model.Session
import Verif.Lemmas.GoSort
import Verif.Spec.DemoSession
import Mathlib.Data.List.Range
import Mathlib.Data.List.Perm.Basic
import Mathlib.Data.List.Perm.Subperm

set_option linter.unusedSectionVars false

/-!
# C46: the k-th signature of a response is for the k-th message in hash order, one for every message

tss-lib's signing parties are a parameter: party `i` signs the `i`-th of the sorted messages, delivers its result at most once, and its
result carries the number it signed in the field `M`. The results of the parties arrive in any order.
-/
namespace Verif.Props.Signing
open Verif.Go Verif.Conversion Verif.Messages Verif.Blame Verif.TssCommon Verif.Session

variable {K P : Type} [DecidableEq K] [DecidableEq P]

/-- the results delivered during a history, in their order -/
def delivered (h : List (LoopEvent P Sig)) : List Sig :=
  h.filterMap fun e => match e with | .done s => some s | _ => none

/-- The parties `0, ..., n-1` deliver their results `sigOf i`, each at most once, in any order. -/
def OncePerParty (n : Nat) (sigOf : Nat → Sig) (ds : List Sig) : Prop :=
  ∃ order : List Nat, order.Nodup ∧ (∀ i ∈ order, i < n) ∧ ds = order.map sigOf

/-- what the loop has collected is the beginning of what was delivered -/
theorem signRun_prefix (env : LoopEnv K P) (n : Nat) (ses : TssCommon.St K P) (h : List (LoopEvent P Sig)) :
    (signRun env n ses h).sigs <+: delivered h ∧
    ((signRun env n ses h).result = none → (signRun env n ses h).crashed = false → (signRun env n ses h).sigs = delivered h) ∧
    (∀ l, (signRun env n ses h).result = some (.ok l) → l = (signRun env n ses h).sigs ∧ l.length = n) := by
  induction h using List.reverseRecOn with
  | nil => simp [signRun, signInit, delivered]
  | append_singleton h e ih =>
    have hd : delivered (h ++ [e]) = delivered h ++ (match e with | .done s => [s] | _ => []) := by
      cases e <;> simp [delivered]
    have hr : signRun env n ses (h ++ [e]) = signStep env n (signRun env n ses h) e := by simp [signRun]
    rw [hr, hd]
    generalize signRun env n ses h = s at ih
    obtain ⟨hp, hn, hl⟩ := ih
    have hp' : ∀ t, s.sigs <+: delivered h ++ t := fun t => hp.trans (List.prefix_append _ _)
    by_cases hc : s.crashed = true
    · simp only [signStep, hc, if_true]
      exact ⟨hp' _, fun _ h => by simp at h, hl⟩
    · have hcf : s.crashed = false := by simpa using hc
      by_cases hres : s.result = none
      · have hs := hn hres hcf
        cases e with
        | inbound e => simp [signStep, hcf, hres, hs]
        | startFailed => simp [signStep, hcf, hres, hs]
        | stop => simp [signStep, hcf, hres, hs]
        | timeout sch =>
          simp only [signStep, hcf, hres]
          cases keysignTimeout env.ses.codec sch env.out.p2pPeers.length s.ses.mgr <;> simp [hs]
        | out sch o =>
          simp only [signStep, hcf, hres]
          generalize OutBatch.ProcessOutCh env.out sch o TSSKeySignMsg s.out = q
          obtain ⟨q₁, q₂⟩ := q
          cases q₂ <;> simp [hs]
        | done sig =>
          simp only [signStep, hcf, hres]
          by_cases hlen : (s.sigs ++ [sig]).length = n
          · have : s.sigs.length + 1 = n := by simpa using hlen
            simp [hs] at this ⊢
            simp [this]
          · have : s.sigs.length + 1 ≠ n := by simpa using hlen
            simp [hs] at this ⊢
            simp [this]
      · have hsome : s.result.isSome = true := by simpa [Option.isSome_iff_ne_none] using hres
        cases e <;> simp only [signStep, hcf, hsome, if_true, if_false, Bool.false_eq_true] <;>
          exact ⟨hp' _, fun h => absurd h hres, fun l h => hl l h⟩

theorem sortResults_eq (l : List Sig) : sortResults l = GoSort.sliceStable (GoSort.geq fun s => Bytes.toNat s.m) l := by
  unfold sortResults GoSort.geq
  congr 1
  funext a b
  rw [Bool.eq_iff_iff]
  simp

theorem sortMessages_eq (l : List Bytes) : sortMessages l = GoSort.sliceStable (GoSort.geq fun m => hashToInt m secp256k1N) l := by
  unfold sortMessages GoSort.geq
  congr 1
  funext a b
  rw [Bool.eq_iff_iff]
  simp

theorem batchLoop_some : ∀ (sigs : List Sig) (ms : List Bytes), sigs.length = ms.length →
    ∃ resp, batchLoop sigs ms = some resp ∧ resp.length = ms.length ∧ resp.map (·.msg) = ms ∧
      ∀ (k : Nat) (e : Signature), resp[k]? = some e → ∃ (s : Sig) (m : Bytes), sigs[k]? = some s ∧ ms[k]? = some m ∧ e = ⟨m, s.r, s.s, s.recovery⟩
  | [], [], _ => ⟨[], rfl, rfl, rfl, by simp⟩
  | s :: sigs, m :: ms, h => by
    obtain ⟨resp, h₁, h₂, h₃, h₄⟩ := batchLoop_some sigs ms (by simpa using h)
    refine ⟨⟨m, s.r, s.s, s.recovery⟩ :: resp, by simp [batchLoop, h₁], by simp [h₂], by simp [h₃], ?_⟩
    intro k e hk
    cases k with
    | zero => exact ⟨s, m, rfl, rfl, by simpa using hk.symm⟩
    | succ k => simpa using h₄ k e (by simpa using hk)

/-- C46. Let the parties of a signing session deliver their results in any order, party `i` the result `sigOf i` for the `i`-th of the
sorted messages. If the session returns its results, then the response it is turned into
* has one entry for every message of the request: its messages are the messages of the request, in descending order of their hash number;
* has in its `k`-th entry a signature made for the hash number of the `k`-th message: the producer of the `k`-th entry signed a message
  with the same hash number, and every party produced exactly one entry. -/
theorem c46_signature_of_each_message (env : LoopEnv K P) (ses : TssCommon.St K P) (request : List Bytes) (sigOf : Nat → Sig)
    (hM : ∀ i m, (sortMessages request)[i]? = some m → Bytes.toNat (sigOf i).m = hashToInt m secp256k1N)
    (h : List (LoopEvent P Sig)) (honce : OncePerParty request.length sigOf (delivered h)) (results : List Sig)
    (hok : (signRun env request.length ses h).result = some (.ok results)) :
    ∃ resp, batchLoop (sortResults results) (sortMessages request) = some resp ∧
      (resp.map (·.msg)).Perm request ∧
      (resp.map fun e => hashToInt e.msg secp256k1N).Pairwise (· ≥ ·) ∧
      ∃ producer : List Nat, producer.Perm (List.range request.length) ∧
        ∀ (k : Nat) (e : Signature), resp[k]? = some e → ∃ (i : Nat) (m : Bytes), producer[k]? = some i ∧ (sortMessages request)[i]? = some m ∧
          hashToInt m secp256k1N = hashToInt e.msg secp256k1N ∧
          e.r = (sigOf i).r ∧ e.s = (sigOf i).s ∧ e.recoveryID = (sigOf i).recovery := by
  obtain ⟨hp, -, hl⟩ := signRun_prefix env request.length ses h
  obtain ⟨rfl, hlen⟩ := hl results hok
  generalize (signRun env request.length ses h).sigs = results at hp hlen
  obtain ⟨order, hnd, hlt, hds⟩ := honce
  rw [hds] at hp
  -- all parties have delivered
  have horder : order.length ≤ request.length := by
    have : order.Subperm (List.range request.length) := hnd.subperm (fun i hi => List.mem_range.2 (hlt i hi))
    simpa using this.length_le
  have hres : results = order.map sigOf := by
    apply hp.eq_of_length
    have := hp.length_le
    simp at this
    simp; omega
  have hol : order.length = request.length := by simpa [hres] using hlen
  have hperm : order.Perm (List.range request.length) := by
    have : order.Subperm (List.range request.length) := hnd.subperm (fun i hi => List.mem_range.2 (hlt i hi))
    exact this.perm_of_length_le (by simp [hol])
  -- both sorts
  have hsm : (sortMessages request).Perm request := by rw [sortMessages_eq]; exact GoSort.sliceStable_perm _ _
  have hsr : (sortResults results).Perm results := by rw [sortResults_eq]; exact GoSort.sliceStable_perm _ _
  have hdm : GoSort.Desc (fun m => hashToInt m secp256k1N) (sortMessages request) := by
    rw [sortMessages_eq]; exact GoSort.sliceStable_desc _ _
  have hdr : GoSort.Desc (fun s => Bytes.toNat s.m) (sortResults results) := by
    rw [sortResults_eq]; exact GoSort.sliceStable_desc _ _
  have hlm : (sortMessages request).length = request.length := hsm.length_eq
  have hlr : (sortResults results).length = request.length := by rw [hsr.length_eq, hlen]
  -- the keys agree
  have hrange : (List.range request.length).map (fun i => Bytes.toNat (sigOf i).m) =
      (sortMessages request).map fun m => hashToInt m secp256k1N := by
    apply List.ext_getElem?
    intro k
    by_cases hk : k < request.length
    · have hk' : k < (sortMessages request).length := by omega
      have e : (sortMessages request)[k]? = some (sortMessages request)[k] := List.getElem?_eq_getElem hk'
      simp only [List.getElem?_map, List.getElem?_range hk, Option.map_some, e, hM k _ e]
    · rw [List.getElem?_eq_none (by simpa using hk), List.getElem?_eq_none (by simp [hlm]; omega)]
  have hkeys : ((sortResults results).map fun s => Bytes.toNat s.m).Perm ((sortMessages request).map fun m => hashToInt m secp256k1N) := by
    rw [← hrange]
    refine (hsr.map _).trans ?_
    rw [hres, List.map_map]
    exact hperm.map _
  have heq := GoSort.desc_keys_eq _ _ _ _ hdr hdm hkeys
  -- the producers
  have hsr' : (sortResults results).Perm (order.map sigOf) := by rw [← hres]; exact hsr
  obtain ⟨producer, hpp, hpm⟩ : ∃ producer : List Nat, producer.Perm order ∧ producer.map sigOf = sortResults results := by
    have : Relation.Comp (· = List.map sigOf ·) (·.Perm ·) (sortResults results) order := by rw [List.eq_map_comp_perm]; exact hsr'
    obtain ⟨c, hc, hco⟩ := this
    exact ⟨c, hco, hc.symm⟩
  obtain ⟨resp, hb, hbl, hbm, hbe⟩ := batchLoop_some (sortResults results) (sortMessages request) (by omega)
  refine ⟨resp, hb, by rw [hbm]; exact hsm, ?_, producer, hpp.trans hperm, ?_⟩
  · have : (resp.map fun e => hashToInt e.msg secp256k1N) = (sortMessages request).map fun m => hashToInt m secp256k1N := by
      rw [← hbm, List.map_map]; rfl
    rw [this]
    exact List.pairwise_map.2 hdm
  · intro k e hk
    obtain ⟨s, m, hs, hm, rfl⟩ := hbe k e hk
    rw [← hpm, List.getElem?_map] at hs
    obtain ⟨i, hi, rfl⟩ := Option.map_eq_some_iff.1 hs
    have hil : i < request.length := by
      have : i ∈ producer := List.mem_of_getElem? hi
      exact List.mem_range.1 ((hpp.trans hperm).mem_iff.1 this)
    have e : (sortMessages request)[i]? = some (sortMessages request)[i] := List.getElem?_eq_getElem (by omega)
    refine ⟨i, _, hi, e, ?_, rfl, rfl, rfl⟩
    rw [← hM i _ e]
    have := congrArg (·[k]?) heq
    simp only [List.getElem?_map, hm, ← hpm, hi, Option.map_some, Option.some.injEq] at this
    exact this

/-- C46 in terms of verification: if every party's result is a valid signature of the hash number it was asked to sign, then every entry of
the response is a valid signature of the hash number of the message it is returned with. `Valid` is any predicate. -/
theorem c46_every_entry_valid (env : LoopEnv K P) (ses : TssCommon.St K P) (request : List Bytes) (sigOf : Nat → Sig)
    (Valid : Nat → Bytes → Bytes → Bytes → Prop)
    (hM : ∀ i m, (sortMessages request)[i]? = some m → Bytes.toNat (sigOf i).m = hashToInt m secp256k1N)
    (hV : ∀ i m, (sortMessages request)[i]? = some m → Valid (hashToInt m secp256k1N) (sigOf i).r (sigOf i).s (sigOf i).recovery)
    (h : List (LoopEvent P Sig)) (honce : OncePerParty request.length sigOf (delivered h)) (results : List Sig)
    (hok : (signRun env request.length ses h).result = some (.ok results)) :
    ∃ resp, batchLoop (sortResults results) (sortMessages request) = some resp ∧ (resp.map (·.msg)).Perm request ∧
      ∀ e ∈ resp, Valid (hashToInt e.msg secp256k1N) e.r e.s e.recoveryID := by
  obtain ⟨resp, h₁, h₂, -, producer, -, h₃⟩ := c46_signature_of_each_message env ses request sigOf hM h honce results hok
  refine ⟨resp, h₁, h₂, ?_⟩
  intro e he
  obtain ⟨k, hk⟩ := List.mem_iff_getElem?.1 he
  obtain ⟨i, m, -, hm, heq, hr, hs, hrec⟩ := h₃ k e hk
  rw [← heq, hr, hs, hrec]
  exact hV i m hm

/-! ## A session in which the hypotheses hold -/

/-- three messages; two of them have the same hash number, being equal in their first 32 bytes -/
def demoRequest : List Bytes := [[3], List.replicate 32 9 ++ [1], List.replicate 32 9 ++ [2]]

/-- the environment: four members, three messages -/
def demoLoopEnv : LoopEnv Nat Nat :=
  ⟨Spec.demoEnv {} 10, ⟨3, [11, 12, 13], [(0, 10), (1, 11), (2, 12), (3, 13)], fun n => String.ofList (List.replicate n 'x')⟩, fun _ => true⟩

/-- the result of party `i` -/
def demoSig (i : Nat) : Sig := ⟨some [UInt8.ofNat i], [0], [UInt8.ofNat (10 + i)], [UInt8.ofNat (20 + i)], if i = 2 then [3] else List.replicate 32 9⟩

/-- the parties finish in the order 2, 0, 1 -/
def demoRun : List (LoopEvent Nat Sig) := [.done (demoSig 2), .done (demoSig 0), .done (demoSig 1)]

example : (signRun demoLoopEnv demoRequest.length (newTssCommon (Spec.demoManagerN 4 0)) demoRun).result =
    some (.ok [demoSig 2, demoSig 0, demoSig 1]) := by decide +kernel

example := c46_signature_of_each_message demoLoopEnv (newTssCommon (Spec.demoManagerN 4 0)) demoRequest demoSig
  (by
    have e : sortMessages demoRequest = [List.replicate 32 9 ++ [2], List.replicate 32 9 ++ [1], [3]] := by decide +kernel
    rw [e]
    intro i m h
    match i, h with
    | 0, h => obtain rfl : _ = m := by simpa using h
              decide +kernel
    | 1, h => obtain rfl : _ = m := by simpa using h
              decide +kernel
    | 2, h => obtain rfl : _ = m := by simpa using h
              decide +kernel)
  demoRun ⟨[2, 0, 1], by decide, by decide, rfl⟩ [demoSig 2, demoSig 0, demoSig 1] (by decide +kernel)

end Verif.Props.Signing
