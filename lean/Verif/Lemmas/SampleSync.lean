import Verif.Lemmas.SyncNode
import Verif.Lemmas.SampleBlock
/-!
A chain of 300 blocks without transactions that a node can synchronise, with a fork at block 260; used to show that the hypotheses of C91 are met by nodes that
commit, stop and start again.
-/
namespace Verif.Sync
open Verif Pow Spec Props ForkTracking

def quietFork (n : Nat) : Fork := if n < 260 then .paris else .shanghai

def quietHeader : Nat → Header
  | 0 => ⟨0, 0xc0, 99, 0x80, 0x80, 0x80, 0, 0, 0, 30000000, 0, 0, [], 0, 0, 7, 0, 0, 0, 0, 0⟩
  | n + 1 => ⟨headerHash sampleCrypto (quietFork n) (quietHeader n), 0xc0, 99, 0x80, 0x80, 0x80, 0, 0, n + 1, 30000000, 0, BitVec.ofNat 256 (n + 1), [], 0, 0, 7,
      if n + 1 < 260 then 0 else 0x80, 0, 0, 0, 0⟩

def quietObj (n : Nat) : BlockObj := ⟨quietFork n, .pos ⟨quietHeader n, [], [], []⟩⟩

/-- The node: its first fork is paris, from time 260 on shanghai. -/
def quietWorld : Sync.World where
  forks := [.byBlockNumber 0, .byTimestamp 260]
  names := [.paris, .shanghai]
  genesis := ⟨[quietObj 0], sampleState, 1⟩
  genesisTime := 0
  blocks := (List.range 300).map fun i => quietObj (i + 1)

theorem quiet_number (n : Nat) : (quietObj n).number = n := by cases n <;> rfl
theorem quiet_time (n : Nat) : (quietObj n).time = BitVec.ofNat 256 n := by cases n <;> rfl

theorem quiet_block {n : Nat} (h : n < 300) : quietWorld.blocks[n]? = some (quietObj (n + 1)) := by
  show ((List.range 300).map fun i => quietObj (i + 1))[n]? = _
  rw [List.getElem?_map, List.getElem?_range h]
  rfl

theorem ofNat_small {n : Nat} (h : n ≤ 300) : (BitVec.ofNat 256 n).toNat = n := by
  rw [BitVec.toNat_ofNat]
  exact Nat.mod_eq_of_lt (Nat.lt_of_le_of_lt h (by decide))

theorem quiet_sound : Sound quietWorld (quietObj 0) := by
  refine ⟨rfl, rfl, ?_⟩
  show ((0 : Word) :: ((List.range 300).map fun i => quietObj (i + 1)).map BlockObj.time).Pairwise _
  rw [List.pairwise_cons, List.map_map]
  refine ⟨fun t _ => Nat.zero_le _, List.pairwise_map.mpr ?_⟩
  refine List.Pairwise.imp_of_mem ?_ (List.pairwise_lt_range (n := 300))
  intro a b ha hb hab
  have ha := List.mem_range.mp ha
  have hb := List.mem_range.mp hb
  show (quietObj (a + 1)).time.toNat ≤ (quietObj (b + 1)).time.toNat
  rw [quiet_time, quiet_time, ofNat_small (by omega), ofNat_small (by omega)]
  omega

theorem quiet_valid {n : Nat} (h : n < 300) :
    ValidHeader sampleCrypto (quietFork (n + 1)) (quietFork n) (quietHeader n) (quietHeader (n + 1)) := by
  have e : ∀ n, (quietHeader n).number = n ∧ (quietHeader n).gasLimit = 30000000 ∧ (quietHeader n).gasUsed = 0 ∧ (quietHeader n).baseFeePerGas = 7 ∧
      (quietHeader n).timestamp = BitVec.ofNat 256 n := fun n => by cases n <;> exact ⟨rfl, rfl, rfl, rfl, rfl⟩
  obtain ⟨e1, e2, e3, e4, e5⟩ := e n
  obtain ⟨f1, f2, f3, f4, f5⟩ := e (n + 1)
  refine ⟨by rw [f1, e1], ?_, rfl, ?_, ?_, ?_, ?_, ?_, rfl, rfl, ?_⟩
  · rw [e5, f5, ofNat_small (by omega), ofNat_small (by omega)]; omega
  · rw [e2, f2]; unfold GasLimitOK; omega
  · rw [f2, f3]; decide
  · rw [f4, e2, e3, e4]; decide +kernel
  · intro hc
    exfalso
    revert hc
    unfold quietFork
    split <;> decide
  · exact Nat.zero_le _
  · show (0xc0 : Word) = _
    decide +kernel

theorem quiet_commitments : (∀ f ∈ [Fork.paris, .shanghai], ∃ k, commitments sampleCrypto ⟨{ sampleState with fork := f }, BlockOutput.empty⟩ = .ok k ∧ k.stateRoot = 0x80 ∧
    k.transactionsRoot = 0x80 ∧ k.receiptRoot = 0x80 ∧ k.bloom = 0 ∧ k.withdrawalsRoot = 0x80) := by
  have key : ∀ f ∈ [Fork.paris, .shanghai], (match commitments sampleCrypto ⟨{ sampleState with fork := f }, BlockOutput.empty⟩ with
      | .ok k => k.stateRoot == 0x80 && k.transactionsRoot == 0x80 && k.receiptRoot == 0x80 && k.bloom == 0 && k.withdrawalsRoot == 0x80
      | .error _ => false) = true := by decide +kernel
  intro f hf
  have h := key f hf
  split at h
  case _ k hk =>
    simp only [Bool.and_eq_true, beq_iff_eq] at h
    exact ⟨k, hk, h.1.1.1.1, h.1.1.1.2, h.1.1.2, h.1.2, h.2⟩
  · cases h

theorem import_quiet {C : Crypto} {blocks : List ChainBlock} {s : State} {id : U64} {h : Header} {k : Commitments} (ho : s.fork.since .osaka = false)
    (hp : s.fork.since .prague = false) (hc : s.fork.since .cancun = false) (hv : validateHeader C ⟨blocks, s, id⟩ h = .ok ())
    (hk : commitments C ⟨s, BlockOutput.empty⟩ = .ok k) (h0 : h.gasUsed = 0) (h1 : k.transactionsRoot = h.transactionsRoot) (h2 : k.stateRoot = h.stateRoot)
    (h3 : k.receiptRoot = h.receiptRoot) (h4 : k.bloom = h.bloom) (h5 : s.fork.since .shanghai = true → k.withdrawalsRoot = h.withdrawalsRoot) :
    ∃ c, stateTransition C ⟨blocks, s, id⟩ ⟨h, [], [], []⟩ = .ok c ∧ c.state = s := by
  have hb : ∀ B, applyBody C B s [] [] = .ok ⟨s, BlockOutput.empty⟩ := by
    intro B
    have e1 : storeBeaconRoot C B s = .ok s := by unfold storeBeaconRoot; rw [hc]; rfl
    have e2 : storeParentHash C B s = .ok s := by unfold storeParentHash; rw [hp]; rfl
    unfold applyBody
    dsimp only
    rw [e1]
    dsimp only
    rw [e2, hp]
    cases s.fork.since .shanghai <;> rfl
  unfold stateTransition
  dsimp only
  rw [ho, hv]
  rw [if_neg (by rintro ⟨h, -⟩; cases h)]
  dsimp only
  rw [if_neg (fun h => h rfl), hb]
  dsimp only
  rw [hk]
  dsimp only
  rw [hc, hp]
  rw [if_neg (by rw [h0]; exact fun h => h rfl), if_neg (fun h => h h1), if_neg (fun h => h h2), if_neg (fun h => h h3), if_neg (fun h => h h4),
    if_neg (fun h => h.2 (h5 h.1)), if_neg (by rintro ⟨h, -⟩; cases h), if_neg (by rintro ⟨h, -⟩; cases h)]
  exact ⟨_, rfl, rfl⟩

/-- Importing the next block of the chain. -/
theorem quiet_import {n : Nat} (h : n < 300) (blocks : List ChainBlock) (hp : blocks.getLast? = some (quietObj n).toPos) :
    ∃ c, stateTransition sampleCrypto ⟨blocks, { sampleState with fork := quietFork (n + 1) }, 1⟩ ⟨quietHeader (n + 1), [], [], []⟩ = .ok c ∧
      c.state = { sampleState with fork := quietFork (n + 1) } := by
  have hv : validateHeader sampleCrypto ⟨blocks, { sampleState with fork := quietFork (n + 1) }, 1⟩ (quietHeader (n + 1)) = .ok () := by
    refine validateHeader_of_valid hp ?_ (quiet_valid h)
    intro hc
    exfalso
    revert hc
    show (quietFork n).since .cancun = true → False
    unfold quietFork
    split <;> decide
  have hf : quietFork (n + 1) ∈ [Fork.paris, .shanghai] := by unfold quietFork; split <;> decide
  have hs : ∀ g ∈ [Fork.cancun, .prague, .osaka], (quietFork (n + 1)).since g = false := by unfold quietFork; split <;> decide
  obtain ⟨k, hk, k1, k2, k3, k4, k5⟩ := quiet_commitments _ hf
  refine import_quiet (hs _ (by decide)) (hs _ (by decide)) (hs _ (by decide)) hv hk rfl k2 k1 k3 k4 fun hsh => k5.trans ?_
  show _ = if n + 1 < 260 then 0 else (0x80 : Word)
  rw [if_neg]
  intro hn
  revert hsh
  show (quietFork (n + 1)).since .shanghai = true → False
  unfold quietFork
  rw [if_pos hn]
  decide

/-- The fork in force. -/
theorem quiet_active {n : Nat} (h : n ≤ 300) :
    activeFork quietWorld.names ((⟨quietWorld.forks, 0, 0⟩ : ForkTracking).setBlock n (BitVec.ofNat 256 n)) = some (quietFork n) := by
  have key : ∀ n ≤ 300, activeFork quietWorld.names ((⟨quietWorld.forks, 0, 0⟩ : ForkTracking).setBlock n (BitVec.ofNat 256 n)) = some (quietFork n) := by
    decide +kernel
  exact key n h

theorem quiet_timeAt {n : Nat} (h : n ≤ 300) : timeAt quietWorld n = BitVec.ofNat 256 n := by
  cases n with
  | zero => rfl
  | succ n => rw [timeAt_succ (quiet_block (by omega)), quiet_time]

theorem quiet_last {n : Nat} (h : n ≤ 300) : (lastN 255 (quietObj 0 :: quietWorld.blocks.take n)).getLast? = some (quietObj n) := by
  have hl : quietWorld.blocks.length = 300 := by show ((List.range 300).map _).length = 300; rw [List.length_map, List.length_range]
  rw [List.getLast?_eq_getElem?, lastN_length, lastN_getElem?, List.length_cons, List.length_take, hl, Nat.min_eq_left h]
  have e : n + 1 - 255 + (min 255 (n + 1) - 1) = n := by omega
  rw [e]
  cases n with
  | zero => rfl
  | succ n =>
    rw [List.getElem?_cons_succ, List.getElem?_take_of_lt (by omega)]
    exact quiet_block (by omega)

/-- All 300 blocks are valid. -/
theorem quiet_syncs (K : Ethash.Hashes) : ∀ n ≤ 300, ∃ t c f, syncTo sampleCrypto K quietWorld n = some (t, c) ∧ c.state = { sampleState with fork := f } := by
  intro n
  induction n with
  | zero => intro _; exact ⟨_, _, sampleState.fork, rfl, rfl⟩
  | succ n ih =>
    intro hn
    obtain ⟨t, c, f, h1, hs⟩ := ih (by omega)
    obtain ⟨ht, hb, hi, -⟩ := syncTo_facts quiet_sound h1
    have h2 := quiet_block (n := n) (by omega)
    have hat : At t (timeAt quietWorld n) := by rw [ht]; exact C56_set_block _ _ _
    obtain ⟨e1, -⟩ := C56_advance t _ _ hat (timeAt_mono quiet_sound h2)
    have ht' : (t.advanceBlock (quietObj (n + 1)).time).1 = (⟨quietWorld.forks, 0, 0⟩ : ForkTracking).setBlock (n + 1) (BitVec.ofNat 256 (n + 1)) := by
      rw [e1, ht, quiet_time]; rfl
    have hact := quiet_active hn
    have hf : applyForkOf (quietFork (n + 1)) c = some c := by
      unfold applyForkOf quietFork
      rw [if_neg (by split <;> decide)]
    have hg : beginBlock quietWorld t c (quietObj (n + 1)) = some ((⟨quietWorld.forks, 0, 0⟩ : ForkTracking).setBlock (n + 1) (BitVec.ofNat 256 (n + 1)), c) := by
      unfold beginBlock
      dsimp only
      rw [ht', hact, Option.bind_some, hf]
      split <;> rfl
    have hlast : c.blocks.getLast? = some (quietObj n) := by rw [hb]; exact quiet_last (by omega)
    have hfol : follows ((⟨quietWorld.forks, 0, 0⟩ : ForkTracking).setBlock (n + 1) (BitVec.ofNat 256 (n + 1))) c = true := by
      unfold follows
      rw [hlast]
      dsimp only
      rw [quiet_number]
      exact decide_eq_true rfl
    have hid : c.chainId = 1 := hi
    obtain ⟨c', hc', hs'⟩ := quiet_import (n := n) (by omega) (c.blocks.map BlockObj.toPos) (by rw [List.getLast?_map, hlast]; rfl)
    have hpow : T8n.powFork (quietFork (n + 1)) = none := by unfold quietFork; split <;> rfl
    have htr : transition sampleCrypto K (quietFork (n + 1)) c (quietObj (n + 1)) =
        some { c with blocks := lastN 255 (c.blocks ++ [quietObj (n + 1)]), state := c'.state } := by
      unfold transition
      rw [hpow]
      dsimp only [quietObj]
      rw [hid, hs]
      dsimp only at hc' ⊢
      rw [hc']
    have hfin : finishBlock sampleCrypto K quietWorld ((⟨quietWorld.forks, 0, 0⟩ : ForkTracking).setBlock (n + 1) (BitVec.ofNat 256 (n + 1))) c (quietObj (n + 1)) =
        some { c with blocks := lastN 255 (c.blocks ++ [quietObj (n + 1)]), state := c'.state } := by
      unfold finishBlock
      rw [hfol, if_neg (by decide), if_neg (by rw [quiet_number]; exact fun h => h rfl), hact, Option.bind_some, htr]
    exact ⟨_, _, quietFork (n + 1), syncTo_of h1 h2 (processBlock_of hg hfin), hs'⟩

end Verif.Sync
