import Verif.Lemmas.Alloc
import Verif.Props.C81
import Verif.Props.C54_C55
/-! Property C84: the state as the transition tool reads and writes it. -/
namespace Verif.Props
open Verif Verif.Spec Verif.Pow Ethash T8n Hex Genesis

private theorem empty_wf (f : Fork) : (State.empty f).WF := ⟨State.empty_wf.main, State.empty_wf.storage, State.empty_wf.snaps⟩

private theorem empty_secured (f : Fork) : Secured (State.empty f) := ⟨rfl, fun _ _ h => by cases h⟩

private theorem readAlloc_iff {f : Fork} (hf : f ≠ .daoFork) (l : List (Str × AccountData)) (s : State) :
    readAlloc f l = some s ↔ ∃ xs, Matched AllocDenotes l xs ∧ (f.since .paris = true → ∀ x ∈ xs, x.account ≠ ⟨0, 0, []⟩) ∧
      s = allot (State.empty f) xs := by
  refine Iff.trans ?_ (jsonToState_iff l (State.empty f) s)
  unfold readAlloc
  constructor
  · intro h
    split at h
    · cases h
    · rw [if_neg hf] at h; rename_i e; rw [e]; exact h
  · intro h
    rw [h]
    dsimp only
    rw [if_neg hf]

/-- **C84.** The input is read exactly if every member denotes an account, and, with proof of stake, none of them is empty. -/
theorem C84_accepts {f : Fork} (hf : f ≠ .daoFork) (l : List (Str × AccountData)) :
    (∃ s, readAlloc f l = some s) ↔ ∃ xs, Matched AllocDenotes l xs ∧ (f.since .paris = true → ∀ x ∈ xs, x.account ≠ ⟨0, 0, []⟩) := by
  constructor
  · rintro ⟨s, h⟩
    obtain ⟨xs, h1, h2, -⟩ := (readAlloc_iff hf l s).mp h
    exact ⟨xs, h1, h2⟩
  · rintro ⟨xs, h1, h2⟩
    exact ⟨_, (readAlloc_iff hf l _).mpr ⟨xs, h1, h2, rfl⟩⟩

/-- **C84.** The state that is read: at each address the account the input gives to it, and no other account; in each slot the value given to it. -/
theorem C84_state {f : Fork} (hf : f ≠ .daoFork) {l : List (Str × AccountData)} {s : State} (h : readAlloc f l = some s) :
    ∃ xs, Matched AllocDenotes l xs ∧ Quiet s ∧ Secured s ∧ s.fork = f ∧ (∀ a, getAccountOptional s a = allotted xs a) ∧
      ∀ a k, getStorage s a k = written (writes xs) a k := by
  obtain ⟨xs, h1, -, rfl⟩ := (readAlloc_iff hf l s).mp h
  obtain ⟨q1, q2, q3, q4⟩ := allot_quiet xs (empty_wf f)
  refine ⟨xs, h1, ⟨q1, q2, q3⟩, allot_secured xs (empty_secured f), q4, fun a => ?_, fun a k => allot_storage xs (empty_wf f) a k⟩
  rw [allot_account]
  exact Option.or_none

/-- **C84.** What the tool writes, it reads back: every state without empty accounts (they only matter with proof of stake) and without storage at addresses that
have no account is printed, and the state read from what was printed has the same accounts and the same storage. -/
theorem C84_round_trip {s : State} (hw : s.WF) (ho : ∀ a k, getAccountOptional s a = none → getStorage s a k = 0) (hf : s.fork ≠ .daoFork)
    (he : s.fork.since .paris = true → ∀ a, getAccountOptional s a ≠ some ⟨0, 0, []⟩) :
    ∃ l s', allocToJson s = some l ∧ readAlloc s.fork l = some s' ∧ SameState s s' ∧ Quiet s' ∧ Secured s' ∧ s'.fork = s.fork := by
  have hsome : ∀ e ∈ s.mainTrie.data.entries, e.2 ≠ none := by
    intro e h h0
    have := hw.main.2 e.1 e.2 ((Dict.mem_iff _ _ _).mp h)
    rw [hw.main.1] at this
    exact this h0
  obtain ⟨l, h1, h2⟩ := accountsToJson_spec s _ hsome
  have hx : s.fork.since .paris = true → ∀ x ∈ allotmentsOf s s.mainTrie.data.entries, x.account ≠ ⟨0, 0, []⟩ := by
    intro hp x hx
    obtain ⟨a, acc, hm, rfl⟩ := (mem_allotmentsOf s x _).mp hx
    intro e
    refine he hp a ?_
    unfold getAccountOptional trieGet
    rw [(Dict.mem_iff _ _ _).mp hm]
    exact congrArg some e
  obtain ⟨q1, q2, q3, q4⟩ := allot_quiet (allotmentsOf s s.mainTrie.data.entries) (empty_wf s.fork)
  refine ⟨l, _, h1, (readAlloc_iff hf l _).mpr ⟨_, h2, hx, rfl⟩, ⟨fun a => ?_, fun a k => ?_⟩, ⟨q1, q2, q3⟩, allot_secured _ (empty_secured _), q4⟩
  · rw [allot_account, allotted_of hw.main]
    exact Option.or_none.symm
  · rw [allot_storage _ (empty_wf s.fork)]
    exact (written_of hw ho a k).symm

/-- **C84**, the state root: printing and reading keeps it. -/
theorem C84_root (C : Crypto) {s : State} (hs : Orderly s) (hk : KeysDiffer C s) (hf : s.fork ≠ .daoFork)
    (he : s.fork.since .paris = true → ∀ a, getAccountOptional s a ≠ some ⟨0, 0, []⟩) :
    ∃ l s', allocToJson s = some l ∧ readAlloc s.fork l = some s' ∧ stateRoot C s' = stateRoot C s := by
  obtain ⟨l, s', h1, h2, h3, h4, h5, -⟩ := C84_round_trip hs.quiet.wf hs.owned hf he
  exact ⟨l, s', h1, h2, (stateRoot_reads hs.quiet.wf h4.wf hs.secured h5 hs.quiet.snapshots h4.snapshots hk h3.1 h3.2).symm⟩

/-- **C84.** With proof of stake, a state with an empty account is printed but not read back. -/
theorem C84_empty {s : State} (hw : s.WF) (hp : s.fork.since .paris = true) {a : Address} (ha : getAccountOptional s a = some ⟨0, 0, []⟩) :
    ∃ l, allocToJson s = some l ∧ readAlloc s.fork l = none := by
  have hsome : ∀ e ∈ s.mainTrie.data.entries, e.2 ≠ none := by
    intro e h h0
    have := hw.main.2 e.1 e.2 ((Dict.mem_iff _ _ _).mp h)
    rw [hw.main.1] at this
    exact this h0
  have hf : s.fork ≠ .daoFork := by intro e; rw [e] at hp; cases hp
  obtain ⟨l, h1, h2⟩ := accountsToJson_spec s _ hsome
  refine ⟨l, h1, ?_⟩
  match hr : readAlloc s.fork l with
  | none => rfl
  | some s' =>
    exfalso
    obtain ⟨xs, x1, x2, -⟩ := (readAlloc_iff hf l s').mp hr
    have key : ∀ {l : List (Str × AccountData)} {xs ys : List Allotment}, Matched AllocDenotes l xs → Matched AllocDenotes l ys →
        xs.map (·.account) = ys.map (·.account) := by
      intro l xs ys h1
      induction h1 generalizing ys with
      | nil => intro h; cases h; rfl
      | cons h t ih =>
        intro h'
        cases h' with
        | cons h' t' =>
          rw [List.map_cons, List.map_cons, ih t']
          have e1 := (accountOfJson_iff _ _).mpr ⟨h.nonce, h.balance, h.code⟩
          have e2 := (accountOfJson_iff _ _).mpr ⟨h'.nonce, h'.balance, h'.code⟩
          rw [Option.some.inj (e1.symm.trans e2)]
    have hm : (a, some ⟨0, 0, []⟩) ∈ s.mainTrie.data.entries := by
      rw [Dict.mem_iff]
      unfold getAccountOptional trieGet at ha
      match hq : s.mainTrie.data.get? a with
      | none => rw [hq, hw.main.1] at ha; cases ha
      | some v => rw [hq] at ha; exact congrArg some ha
    have hx := List.mem_map_of_mem (f := (·.account)) ((mem_allotmentsOf s (allotmentOf s a ⟨0, 0, []⟩) _).mpr ⟨a, _, hm, rfl⟩)
    rw [key h2 x1] at hx
    obtain ⟨x, hx, e⟩ := List.mem_map.mp hx
    exact x2 hp x hx e

/-- **C84**, mined histories: the state of every mined chain, in every fork but the DAO fork, is read back. -/
theorem C84_mined {C : Crypto} {K : Hashes} {c c' : PowChain Txs} {bs : List (PowFork × PowBlock Txs)} (h : Mined C K c bs c') (ho : Orderly c.state)
    (hp : c'.state.fork.since .paris = false) (hf : c'.state.fork ≠ .daoFork) :
    ∃ l s', allocToJson c'.state = some l ∧ readAlloc c'.state.fork l = some s' ∧ SameState c'.state s' := by
  have ho' := mined_orderly h ho
  obtain ⟨l, s', h1, h2, h3, -⟩ := C84_round_trip ho'.quiet.wf ho'.owned hf fun e => by rw [hp] at e; cases e
  exact ⟨l, s', h1, h2, h3⟩

/-- **C84**, histories across the change to proof of stake, from spurious dragon on: if there were no empty accounts at the beginning, every state is read back. -/
theorem C84_whole {C : Crypto} {K : Hashes} {c c' : PowChain Txs} {bs : List (PowFork × PowBlock Txs)} {bs' : List ChainBlock} {chain : BlockChain}
    (h : Mined C K c bs c') (ho : Orderly c.state) (hs : c.state.fork.since .spuriousDragon = true)
    (he : ∀ a, getAccountOptional c.state a ≠ some ⟨0, 0, []⟩) (hf : Fork.since .paris c'.state.fork = true) (h' : Imports C (merge c') bs' chain) :
    ∃ l s', allocToJson chain.state = some l ∧ readAlloc chain.state.fork l = some s' ∧ SameState chain.state s' := by
  have ho' := whole_orderly h hf h' ho
  have hp : chain.state.fork.since .paris = true := by
    have key : ∀ {x d : BlockChain} {bs' : List ChainBlock}, Imports C x bs' d → x.state.fork.since .paris = true → d.state.fork.since .paris = true := by
      intro x d bs' hi
      induction hi with
      | nil => exact fun h => h
      | cons h t ih => exact fun hp => ih (by rw [(import_rel hollow_closed h hp).1]; exact hp)
      | upgrade f hs t ih => exact fun hp => ih (since_later hs hp)
    exact key h' rfl
  obtain ⟨l, s', h1, h2, h3, -⟩ := C84_round_trip ho'.quiet.wf ho'.owned (by intro e; rw [e] at hp; cases hp)
    fun _ a ha => by
      obtain ⟨acc, h1, h2, h3, h4⟩ := C79_onwards h ho.quiet hs h' a ⟨_, ha, rfl, rfl, rfl⟩
      obtain ⟨n, b, c⟩ := acc
      cases h2; cases h3; cases h4
      exact he a h1
  exact ⟨l, s', h1, h2, h3⟩

/-! ### The DAO fork, and concrete cases -/

/-- An account that the DAO fork drains. -/
def drainedState (f : Fork) : State := setAccount (State.empty f) 0xd4fe7bc31cedb7bfb8a345f31e668033056b2728 (some ⟨0, 5, []⟩)

def readBack (s : State) (f : Fork) (a : Address) : Option Word :=
  match allocToJson s with
  | none => none
  | some l => match readAlloc f l with
    | none => none
    | some s' => some (getAccount s' a).balance

/-- **C84**, the DAO fork: each time the tool reads a state it makes the irregular state change again, so that what one run has left in an account of the
list is gone in the next. In the forks before and after, it is there. -/
theorem C84_dao : readBack (drainedState .daoFork) .daoFork 0xd4fe7bc31cedb7bfb8a345f31e668033056b2728 = some 0 ∧
    readBack (drainedState .homestead) .homestead 0xd4fe7bc31cedb7bfb8a345f31e668033056b2728 = some 5 ∧
    readBack (drainedState .tangerineWhistle) .tangerineWhistle 0xd4fe7bc31cedb7bfb8a345f31e668033056b2728 = some 5 := by
  refine ⟨?_, ?_, ?_⟩ <;> decide +kernel

def allocText : List (Str × AccountData) :=
  [("0x58".toList, ⟨some "1".toList, some "0x0a".toList, some "0x6007600155".toList, [("0x01".toList, "0x2".toList), ("3".toList, "0x".toList)]⟩),
   ("0x59".toList, ⟨none, some "16".toList, none, []⟩)]

/-- An input with decimal and hexadecimal numbers is read, printed and read again. -/
example : (readAlloc .osaka allocText).any (fun s => getStorage s 0x58 1 == 2 && getStorage s 0x58 3 == 0 && (getAccount s 0x59).balance == 16 &&
      (getAccount s 0x58).nonce == 1 && (getAccount s 0x58).code == [0x60, 7, 0x60, 1, 0x55] &&
      ((allocToJson s).any fun l => l.map (fun e => (String.ofList e.1, e.2.balance.map String.ofList, e.2.storage.map fun y => (String.ofList y.1, String.ofList y.2))) ==
        [("0x0000000000000000000000000000000000000058", some "0xa",
            [("0x0000000000000000000000000000000000000000000000000000000000000001", "0x2")]),
          ("0x0000000000000000000000000000000000000059", some "0x10", [])])) = true := by decide +kernel

/-- The state of the sample chain, with code and storage, meets the hypotheses. -/
example : sampleState.WF ∧ (∀ a k, getAccountOptional sampleState a = none → getStorage sampleState a k = 0) ∧ sampleState.fork ≠ .daoFork ∧
    (∀ a, getAccountOptional sampleState a ≠ some ⟨0, 0, []⟩) :=
  ⟨sample_idle.wf, fun _ _ _ => rfl, by decide, sample_noEmpty⟩

/-- A mined chain in which a contract has written to its storage. -/
example : Orderly powEvmChain.state ∧ ∃ c', Mined sampleCrypto sampleK powEvmChain [(.frontier, powEvmBlock)] c' ∧ c'.state.fork = .berlin ∧
    getStorage c'.state 88 1 = 7 := by
  obtain ⟨c', h, hs, -⟩ := powEvm_mined_to .berlin (by decide)
  exact ⟨powEvm_orderly, c', h.1, h.2, hs⟩

end Verif.Props
