import Verif.Spec.StateTest
import Verif.Spec.ResultJson
import Verif.Props.C80_tool
import Verif.Props.C84
import Verif.Props.C89
import Verif.Props.C98
/-!
C100: state tests. Which fork a name stands for, which cases a file has, which transaction a case runs, which state root is right, and when a case passes.
-/
namespace Verif.Props
open Verif Hex B11r TxJson EnvJson T8n StateTest Spec

/-! ### Names -/

/-- The list that `getModuleName` goes through. -/
private theorem exceptions_eq : exceptionMaps = transitionNames.map (fun p => (p.1.toList, [(p.2.1, 0), (p.2.2, 5)])) ++
    [("EIP150".toList, [(.tangerineWhistle, 0)]), ("EIP158".toList, [(.spuriousDragon, 0)]), ("Merge".toList, [(.paris, 0)]),
     ("ConstantinopleFix".toList, [(.constantinople, 0)])] := by decide +kernel

/-- What the tool finds for each of the known names. -/
private theorem known_fork : ∀ p ∈ forkNames, casefold p.1.toList ∉ unsupportedForks ∧
    ((exceptionMaps.find? (fun e => e.1 == p.1.toList) = some (p.1.toList, [(p.2, 0)])) ∨
      (exceptionMaps.find? (fun e => e.1 == p.1.toList) = none ∧ (modules.find? fun m => titled true m.2 == p.1.toList).map Prod.fst = some p.2)) := by
  decide +kernel

private theorem known_transition : ∀ p ∈ transitionNames, casefold p.1.toList ∉ unsupportedForks ∧
    exceptionMaps.find? (fun e => e.1 == p.1.toList) = some (p.1.toList, [(p.2.1, 0), (p.2.2, 5)]) := by
  decide +kernel

private theorem listed_exception : ∀ e ∈ exceptionMaps, (∃ p ∈ forkNames, e = (p.1.toList, [(p.2, 0)])) ∨
    ∃ p ∈ transitionNames, e = (p.1.toList, [(p.2.1, 0), (p.2.2, 5)]) := by
  decide +kernel

private theorem listed_module : ∀ m ∈ modules, casefold (titled true m.2) ∈ unsupportedForks ∨ ∃ p ∈ forkNames, p.1.toList = titled true m.2 ∧ p.2 = m.1 := by
  decide +kernel

private theorem forkAt_one (f : Fork) (n : Nat) : forkAt n [(f, 0)] = some f := by
  unfold forkAt; simp

private theorem forkAt_two (f g : Fork) (n : Nat) : forkAt n [(f, 0), (g, 5)] = some (if n < 5 then f else g) := by
  unfold forkAt
  by_cases h : n < 5
  · simp [h, Nat.not_le.mpr h]
  · simp [h, Nat.not_lt.mp h]

/-- **C100**, forks: in the block with the number, the tools run the fork that the name stands for, and refuse every other name. -/
theorem C100_fork (name : Str) (v : Num) (n : Nat) (hv : WritesNumber v n) (f : Fork) : getModuleName name (some v) = some f ↔ Names name n f := by
  have hp := (parseHexOrInt_iff v n).mpr hv
  constructor
  · intro h
    unfold getModuleName at h
    split at h
    · cases h
    · rename_i hu
      split at h
      · rename_i e he
        have hm := List.mem_of_find?_eq_some he
        have hn : e.1 = name := by simpa using List.find?_some he
        rw [Option.bind_some, hp] at h
        replace h : forkAt n e.2 = some f := h
        rcases listed_exception e hm with ⟨p, h1, rfl⟩ | ⟨p, h1, rfl⟩
        · rw [forkAt_one] at h
          cases h
          exact .inl ⟨p.1, h1, hn.symm⟩
        · rw [forkAt_two] at h
          cases h
          exact .inr ⟨p.1, p.2.1, p.2.2, h1, hn.symm, rfl⟩
      · obtain ⟨m, hm, rfl⟩ := Option.map_eq_some_iff.mp h
        have hn : titled true m.2 = name := by simpa using List.find?_some hm
        rcases listed_module m (List.mem_of_find?_eq_some hm) with h1 | ⟨p, h1, h2, h3⟩
        · rw [hn] at h1; exact absurd h1 hu
        · exact .inl ⟨p.1, by rw [← h3]; exact h1, (h2.trans hn).symm⟩
  · rintro (⟨x, h1, rfl⟩ | ⟨x, old, new, h1, rfl, rfl⟩)
    · obtain ⟨h2, h3⟩ := known_fork _ h1
      unfold getModuleName
      rw [if_neg h2]
      rcases h3 with h3 | ⟨h3, h4⟩
      · rw [h3]
        show ((some v).bind parseHexOrInt).bind _ = _
        rw [Option.bind_some, hp]
        exact forkAt_one f n
      · rw [h3]; exact h4
    · obtain ⟨h2, h3⟩ := known_transition _ h1
      unfold getModuleName
      rw [if_neg h2, h3]
      show ((some v).bind parseHexOrInt).bind _ = _
      rw [Option.bind_some, hp]
      exact forkAt_two old new n

private theorem supported_known : ∀ s ∈ supportedForks, s ∈ knownNames := by decide +kernel
private theorem known_supported : ∀ s ∈ knownNames, s ∈ supportedForks := by decide +kernel

/-- **C100**, which cases are run: those with one of the known names, up to the case of letters. -/
theorem C100_supported (name : Str) : casefold name ∈ supportedForks.map casefold ↔ ∃ s ∈ knownNames, SameLetters name s := by
  constructor
  · intro h
    obtain ⟨s, h1, h2⟩ := List.mem_map.mp h
    exact ⟨s, supported_known s h1, h2.symm⟩
  · rintro ⟨s, h1, h2⟩
    exact List.mem_map.mpr ⟨s, known_supported s h1, h2.symm⟩

/-! ### Cases -/

private theorem mem_casesFrom (key : Str) (t : Test) (fork : Str) (c : TestCase) : ∀ (l : List Post) (i : Nat), c ∈ casesFrom key t fork i l ↔
    ∃ j q, l[j]? = some q ∧ c = ⟨key, i + j, fork, q, t.pre, t.env, t.previousHash, t.transaction⟩
  | [], i => by simp [casesFrom]
  | q :: r, i => by
    rw [casesFrom, List.mem_cons, mem_casesFrom key t fork c r (i + 1)]
    constructor
    · rintro (rfl | ⟨j, q', h1, rfl⟩)
      · exact ⟨0, q, rfl, rfl⟩
      · exact ⟨j + 1, q', h1, by rw [Nat.add_right_comm, Nat.add_assoc]⟩
    · rintro ⟨j, q', h1, rfl⟩
      cases j with
      | zero => cases h1; exact .inl rfl
      | succ j => exact .inr ⟨j, q', h1, by rw [Nat.add_right_comm, Nat.add_assoc]⟩

private theorem length_casesFrom (key : Str) (t : Test) (fork : Str) : ∀ (l : List Post) (i : Nat), (casesFrom key t fork i l).length = l.length
  | [], _ => rfl
  | _ :: r, i => by rw [casesFrom, List.length_cons, List.length_cons, length_casesFrom key t fork r]

/-- **C100**, the cases of a file: one for each post-state of each fork of each test, with the name, state, environment and transaction of its test. -/
theorem C100_cases (tests : List (Str × Test)) :
    (∀ c, c ∈ readTestCases tests ↔ ∃ t ∈ tests, ∃ p ∈ t.2.post, p.2[c.index]? = some c.post ∧ c.forkName = p.1 ∧ c.key = t.1 ∧ c.pre = t.2.pre ∧ c.env = t.2.env ∧
      c.previousHash = t.2.previousHash ∧ c.transaction = t.2.transaction) ∧
    (readTestCases tests).length = (tests.map fun t => (t.2.post.map fun p => p.2.length).sum).sum := by
  constructor
  · intro c
    induction tests with
    | nil => simp [readTestCases]
    | cons t r ih =>
      obtain ⟨key, t⟩ := t
      rw [readTestCases, List.mem_append, ih, List.mem_flatMap]
      simp only [mem_casesFrom, Nat.zero_add, List.mem_cons, exists_eq_or_imp]
      refine or_congr ?_ Iff.rfl
      constructor
      · rintro ⟨p, hp, j, q, h1, rfl⟩
        exact ⟨p, hp, h1, rfl, rfl, rfl, rfl, rfl, rfl⟩
      · rintro ⟨p, hp, h1, h2, h3, h4, h5, h6, h7⟩
        refine ⟨p, hp, c.index, c.post, h1, ?_⟩
        cases c
        dsimp only at h1 h2 h3 h4 h5 h6 h7
        subst h2; subst h3; subst h4; subst h5; subst h6; subst h7
        rfl
  · induction tests with
    | nil => rfl
    | cons t r ih =>
      obtain ⟨key, t⟩ := t
      rw [readTestCases, List.length_append, ih, List.length_flatMap, List.map_cons, List.sum_cons]
      simp only [length_casesFrom]

/-! ### One case -/

private theorem pick_takes {α : Type} (l : Option (List α)) (i : Nat) (x : Option α) : pick l i = some x ↔ Takes l i x := by
  unfold pick Takes
  cases l with
  | none => simp [eq_comm]
  | some m =>
    rw [Option.map_eq_some_iff]
    constructor
    · rintro ⟨a, h1, rfl⟩
      exact .inr ⟨m, rfl, (List.getElem?_eq_some_iff.mp h1).1, h1⟩
    · rintro (⟨h, -⟩ | ⟨m', h, h1, h2⟩)
      · cases h
      · cases h
        rw [List.getElem?_eq_getElem h1] at h2
        exact ⟨_, List.getElem?_eq_getElem h1, h2⟩

/-- **C100**, the transaction: the case runs the transaction that its indexes choose from the lists of the test. -/
theorem C100_transaction (c : TestCase) (d : TxData) : caseTx c = some d ↔ Chosen c d := by
  have acc : ∀ (x : Option (Option (List AccessData))) (o : Option (List AccessData)),
      (match x with | some (some l) => some l | _ => o) = (x.getD none).or o := by
    intro x o
    match x with
    | none => rfl
    | some none => rfl
    | some (some l) => rfl
  unfold caseTx
  simp only [Option.bind_eq_bind, Option.bind_eq_some_iff, Option.pure_def, Option.some.injEq]
  constructor
  · rintro ⟨i, h1, j, h2, k, h3, a, h4, b, h5, v, h6, x, h7, rfl⟩
    exact ⟨⟨i, j, k, h1, h2, h3, (pick_takes _ _ _).mp h4, (pick_takes _ _ _).mp h5, (pick_takes _ _ _).mp h6, x, (pick_takes _ _ _).mp h7, acc _ _⟩, rfl⟩
  · rintro ⟨⟨i, j, k, h1, h2, h3, h4, h5, h6, x, h7, h8⟩, h9⟩
    refine ⟨i, h1, j, h2, k, h3, _, (pick_takes _ _ _).mpr h4, _, (pick_takes _ _ _).mpr h5, _, (pick_takes _ _ _).mpr h6, x, (pick_takes _ _ _).mpr h7, ?_⟩
    exact (congrArg (fun a => ({ c.transaction.others with input := d.input, gas := d.gas, value := d.value, accessList := a } : TxData))
      ((acc x _).trans h8.symm)).trans h9.symm

private theorem readAlloc_quiet {f : Fork} {l : List (Str × Genesis.AccountData)} {s : State} (h : readAlloc f l = some s) : Quiet s ∧ s.fork = f := by
  by_cases hf : f = .daoFork
  · subst hf
    unfold readAlloc at h
    split at h
    · cases h
    · rename_i s0 h0
      obtain ⟨xs, -, -, rfl⟩ := (jsonToState_iff l (State.empty .daoFork) s0).mp h0
      obtain ⟨q1, q2, q3, q4⟩ := allot_quiet xs (s := State.empty .daoFork) ⟨State.empty_wf.main, State.empty_wf.storage, State.empty_wf.snaps⟩
      rw [if_pos rfl] at h
      split at h
      · cases h
      · rename_i s' h1
        cases h
        obtain ⟨m, -⟩ := moveAll_moved _ h1
        exact ⟨moved_quiet m ⟨q1, q2, q3⟩, m.fork.trans q4⟩
  · obtain ⟨-, -, h1, -, h2, -⟩ := C84_state hf h
    exact ⟨h1, h2⟩

/-- **C100**, one case: it is run by the fork that its name stands for, on the state and in the environment that the test describes, where the only block hash is
the `previousHash` of the test, as that of block 0, and the root is the right one for the transaction that the indexes choose. (What `readAlloc` and `parseJsonTx`
read is in C84 and C89. The limits are those of `C80_state_test`.) -/
theorem C100_case {C : Crypto} {sign : Signer} {c : TestCase} {r : Result} (h : runTestCase C sign c = some r) :
    ∃ f n d s e B, Has c.env.currentNumber (WritesNumber · n) ∧ Names c.forkName n f ∧ Chosen c d ∧ readAlloc f c.pre = some s ∧ s.fork = f ∧
      DescribesEnv f (caseEnv c) e ∧ (∃ p, Says True c.previousHash p (fun t x => WritesBytes t (wordBytes x)) ∧ ∀ m, e.blockHashes m = if m = 0 then p else none) ∧
      blockEnvironment C f 1 e = .ok (some B) ∧
      (BlockFits f B → StateFits s → (∀ tx, parseJsonTx C sign f d = some tx → 131072 * tx.blobHashes.length < 2 ^ 64) → RightRoot C sign f B s d r.stateRoot) := by
  unfold runTestCase at h
  simp only [Option.bind_eq_bind, Option.bind_eq_some_iff] at h
  obtain ⟨d, h1, f, h2, s, h3, e, h4, h5⟩ := h
  have hd := (C98_read f (caseEnv c) e).mp h4
  obtain ⟨v, hv, hn⟩ := hd.number
  replace hv : c.env.currentNumber = some v := hv
  rw [hv] at h2
  obtain ⟨hq, hf⟩ := readAlloc_quiet h3
  split at h5
  · rename_i B hB
    split at h5
    · rename_i t r' hr
      cases h5
      refine ⟨f, e.currentNumber, d, s, e, B, ⟨v, hv, hn⟩, (C100_fork _ _ _ hn _).mp h2, (C100_transaction c d).mp h1, h3, hf, hd, ?_, hB, ?_⟩
      · obtain ⟨l, k1, k2⟩ := hd.hashes
        replace k1 : Each DescribesHash (match c.previousHash with | some h => [(['0'], h)] | none => []) l := k1
        cases hp : c.previousHash with
        | none =>
          rw [hp] at k1
          cases l with
          | nil =>
            refine ⟨none, .inr (.inl ⟨trivial, rfl, rfl⟩), fun m => ?_⟩
            rw [k2, ite_self]; rfl
          | cons a r => exact k1.elim
        | some p =>
          rw [hp] at k1
          match l with
          | [] => exact k1.elim
          | _ :: _ :: _ => exact k1.2.elim
          | [(m0, x)] =>
            obtain ⟨⟨w1, w2⟩, -⟩ := k1
            have hz : m0 = 0 := writesHex_unique w1 ⟨['0'], .inr ⟨rfl, (fun t ht => by cases ht)⟩, by decide, by decide +kernel, by decide +kernel⟩
            subst hz
            refine ⟨some x, .inr (.inr ⟨trivial, p, x, rfl, rfl, w2⟩), fun m => ?_⟩
            rw [k2]
            unfold lastFor
            by_cases hm : m = 0
            · subst hm; rfl
            · rw [if_neg hm]
              simp [Ne.symm hm]
      · intro hB1 hS1 hb
        unfold RightRoot
        unfold TxJson.readTxs at hr
        match hp : parseJsonTx C sign f d with
        | none =>
          rw [hp] at hr
          refine .inr ⟨(fun tx htx => by cases htx), ?_⟩
          unfold runStateTest at hr
          dsimp only [TxJson.readTxs] at hr
          split at hr
          · cases hr
          · rename_i r'' hu
            cases hr
            obtain ⟨k, hk, -, -, -, -, u5, -⟩ := update_inv hu
            rw [u5]; exact commitments_state hk
        | some tx =>
          rw [hp] at hr
          rcases C80_state_test (hf ▸ hB1) hq hS1 (hb tx hp) hr with ⟨-, b, g1, -, -, g2⟩ | ⟨-, -, -, g1, g2⟩
          · exact .inl ⟨tx, b, rfl, g1, g2⟩
          · exact .inr ⟨fun tx' h' => by cases h'; exact g2, g1⟩
    · cases h5
  · cases h5

private theorem parsed_known {C : Crypto} {sign : Signer} {f : Fork} {d : TxData} {tx : Transaction} (h : parseJsonTx C sign f d = some tx) :
    (∃ t, tx = .legacy t) ∨ f.since .byzantium = true := by
  obtain ⟨g, i, v, r, s, -, -, -, -, -, h⟩ := parse_ok.mp h
  obtain ⟨d', -, h⟩ := Option.bind_eq_some_iff.mp h
  have hk := ((C89_load f d' tx).mp h).1.known
  have up : f.since .berlin = true ∨ f.since .london = true ∨ f.since .cancun = true ∨ f.since .prague = true → f.since .byzantium = true := by
    cases f <;> decide
  rcases hk with h0 | h1 | h1 | h1 | h1
  · cases tx with
    | legacy t => exact .inl ⟨t, rfl⟩
    | _ => cases h0
  · exact .inr (up (.inl h1.2))
  · exact .inr (up (.inr (.inl h1.2)))
  · exact .inr (up (.inr (.inr (.inl h1.2))))
  · exact .inr (up (.inr (.inr (.inr h1.2))))

/-- **C100**, which cases can be run: all that say what is needed and keep to the limits, also with a transaction that cannot be read or included, unless MODEXP
overflows in the transaction (from byzantium to prague, C65). -/
theorem C100_runs {C : Crypto} {sign : Signer} {c : TestCase} {f : Fork} {n : Nat} {d : TxData} {s : State} {e : EnvData} {B : BlockEnv}
    (hn : Has c.env.currentNumber (WritesNumber · n)) (hf : Names c.forkName n f) (hd : Chosen c d) (hs : readAlloc f c.pre = some s)
    (he : DescribesEnv f (caseEnv c) e) (hB : blockEnvironment C f 1 e = .ok (some B)) (hB1 : BlockFits f B) (hS : StateFits s)
    (hb : ∀ tx, parseJsonTx C sign f d = some tx → 131072 * tx.blobHashes.length < 2 ^ 64)
    (hm : OldModexp f → ∀ tx b, parseJsonTx C sign f d = some tx → processTransaction C B ⟨s, BlockOutput.empty⟩ tx 0 ≠ .error (.exn (.crash .overflowError), b)) :
    ∃ r, runTestCase C sign c = some r := by
  obtain ⟨v, hv, hw⟩ := hn
  obtain ⟨hq, hsf⟩ := readAlloc_quiet hs
  have key : ∃ s' r, runStateTest C B s (TxJson.readTxs C sign f 0 [d]) = .ok (s', r) := by
    unfold TxJson.readTxs
    match hp : parseJsonTx C sign f d with
    | none =>
      obtain ⟨r, hr, -⟩ := C80_state_none (C := C) (B := B) hq hS
      exact ⟨s, r, hr⟩
    | some tx =>
      rcases C80_state_total (C := C) (i := 0) (rest := TxJson.readTxs C sign f 1 []) (hsf ▸ hB1) hq hS (hsf ▸ parsed_known hp) (hb tx hp) with h | ⟨x, b, h1, rfl, h2, -⟩
      · exact h
      · exact absurd h2 (hm (hsf ▸ h1) tx b hp)
  obtain ⟨s', r, hr⟩ := key
  refine ⟨r, ?_⟩
  unfold runTestCase
  rw [(C100_transaction c d).mpr hd, hv, Option.bind_eq_bind, Option.bind_some, (C100_fork _ _ _ hw _).mpr hf, Option.bind_eq_bind, Option.bind_some, hs,
    Option.bind_eq_bind, Option.bind_some, (C98_read f (caseEnv c) e).mpr he, Option.bind_eq_bind, Option.bind_some, hB]
  dsimp only
  rw [hr]

/-! ### The report -/

/-- The cases that are run. -/
def selected (tests : List (Str × Test)) : List TestCase := (readTestCases tests).filter fun c => casefold c.forkName ∈ supportedForks.map casefold

private theorem mapM_each_of {α β : Type} {f : α → Option β} {R : α → β → Prop} (h : ∀ a b, f a = some b → R a b) {l : List α} {m : List β}
    (e : l.mapM f = some m) : Each R l m := by
  have k := (mapM_each (fun a b => Iff.rfl) l m).mp e
  clear e
  induction l generalizing m with
  | nil => cases m with
    | nil => exact trivial
    | cons b r => exact k.elim
  | cons a l ih => cases m with
    | nil => exact k.elim
    | cons b r => exact ⟨h a b k.1, ih k.2⟩

private theorem mapM_isSome {α β : Type} {f : α → Option β} (l : List α) : (∃ m, l.mapM f = some m) ↔ ∀ a ∈ l, ∃ b, f a = some b := by
  induction l with
  | nil => simp
  | cons a r ih =>
    rw [List.mapM_cons]
    simp only [Option.bind_eq_bind, Option.bind_eq_some_iff, Option.pure_def, Option.some.injEq, List.mem_cons, forall_eq_or_imp, ← ih]
    constructor
    · rintro ⟨m, b, h1, m', h2, -⟩; exact ⟨⟨b, h1⟩, m', h2⟩
    · rintro ⟨⟨b, h1⟩, m', h2⟩; exact ⟨_, b, h1, m', h2, rfl⟩

/-- **C100**, the report: there is a verdict for every selected case, in the order of the file, and it is right. -/
theorem C100_report {C : Crypto} {sign : Signer} {tests : List (Str × Test)} {vs : List Verdict} (h : runOne C sign tests = some vs) :
    Each (Judges C sign) (selected tests) vs := by
  refine mapM_each_of (fun c v => ?_) h
  unfold judge
  simp only [Option.bind_eq_bind, Option.bind_eq_some_iff, Option.pure_def, Option.some.injEq]
  rintro ⟨r, h1, b, ⟨t, h2, h3⟩, rfl⟩
  exact ⟨rfl, rfl, r, b, h1, ⟨⟨_, rfl⟩, _, .inl rfl, bytesHex_spec _⟩, ⟨t, h2, (hexToBytes_writes t b).mp h3⟩, beq_iff_eq⟩

/-- **C100**, when there is a report: exactly if every selected case can be run and has an expected root. One case that cannot be run leaves the file without any. -/
theorem C100_completes (C : Crypto) (sign : Signer) (tests : List (Str × Test)) :
    (∃ vs, runOne C sign tests = some vs) ↔ ∀ c ∈ selected tests, (∃ r, runTestCase C sign c = some r) ∧ Has c.post.hash fun t => ∃ b, WritesBytes t b := by
  refine (mapM_isSome _).trans (forall_congr' fun c => forall_congr' fun _ => ?_)
  unfold judge
  simp only [Option.bind_eq_bind, Option.bind_eq_some_iff, Option.pure_def, Option.some.injEq]
  constructor
  · rintro ⟨v, r, h1, b, ⟨t, h2, h3⟩, -⟩
    exact ⟨⟨r, h1⟩, t, h2, b, (hexToBytes_writes t b).mp h3⟩
  · rintro ⟨⟨r, h1⟩, t, h2, b, h3⟩
    exact ⟨_, r, h1, b, ⟨t, h2, (hexToBytes_writes t b).mpr h3⟩, rfl⟩

/-- **C100**, a limit: a case whose fork is named in other letters is selected, but no fork is found for it, and the whole file is left without a report. -/
theorem C100_letters (C : Crypto) (sign : Signer) (tests : List (Str × Test)) (c : TestCase) (hc : c ∈ readTestCases tests) (s : Str) (hs : s ∈ knownNames)
    (hl : SameLetters c.forkName s) (hn : c.forkName ∉ knownNames) : runOne C sign tests = none := by
  have hm : c ∈ selected tests := List.mem_filter.mpr ⟨hc, by simpa using (C100_supported c.forkName).mpr ⟨s, hs, hl⟩⟩
  cases h : runOne C sign tests with
  | none => rfl
  | some vs =>
    obtain ⟨⟨r, hr⟩, -⟩ := (C100_completes C sign tests).mp ⟨vs, h⟩ c hm
    obtain ⟨f, n, -, -, -, -, -, h2, -⟩ := C100_case hr
    refine absurd ?_ hn
    unfold knownNames
    rcases h2 with ⟨x, h3, h4⟩ | ⟨x, o, w, h3, h4, -⟩
    · exact List.mem_append_left _ (List.mem_map.mpr ⟨(x, f), h3, h4.symm⟩)
    · exact List.mem_append_right _ (List.mem_map.mpr ⟨(x, o, w), h3, h4.symm⟩)

/-! ### A file

A payment with two values under two names of forks, and a name that is not known. The last of the three cases that are run cannot be included, as the sender is
too poor, and expects another root than the one that stays. -/

def sampleTest : Test :=
  { env := { currentCoinbase := some "0x0a".toList, currentGasLimit := some (.inl "0x100000".toList), currentNumber := some (.inl "0x1".toList),
             currentTimestamp := some (.inr 1000), currentDifficulty := some (.inl "0x20000".toList), currentBaseFee := some (.inl "0x1".toList) }
    previousHash := some ("0x".toList ++ List.replicate 64 '1')
    pre := [(String.toList "0x2a", { balance := some "0xffffffff".toList, nonce := some "0x1".toList, code := none, storage := [] })]
    transaction := { data := some ["0x".toList, "0x00".toList], gasLimit := some ["0x5208".toList, "0x7530".toList],
                     value := some ["0x1".toList, "0xfffffffff".toList], accessLists := some [none, some []],
                     others := { legacyToBeSigned with input := none, gas := none, value := none, «to» := some "0x0b".toList } }
    post := [("London".toList, [{ data := some 0, gas := some 0, value := some 0, hash := some (writtenBytes (wordBytes 2606329403499835044909425608392832)) }]),
             ("BerlinToLondonAt5".toList,
              [{ data := some 0, gas := some 1, value := some 0, hash := some (writtenBytes (wordBytes 2606329403499835044909425608392832)) },
               { data := some 1, gas := some 1, value := some 1, hash := some (writtenBytes (wordBytes 2606329403499835044909425608392832)) }]),
             ("Other".toList, [{}])] }

/-- The report, and the gas and the rejections of the three cases. -/
example : (runOne signingCrypto sampleSign [("payment".toList, sampleTest)]).map (fun l => l.map fun v => (v.name, v.fork, v.pass)) =
      some [("payment".toList, "London".toList, true), ("payment".toList, "BerlinToLondonAt5".toList, true), ("payment".toList, "BerlinToLondonAt5".toList, false)] ∧
    (selected [("payment".toList, sampleTest)]).map (fun c => (runTestCase signingCrypto sampleSign c).map fun r => (r.gasUsed, r.rejected)) =
      [some (21000, []), some (21000, []), some (0, [0])] := by
  refine ⟨?_, ?_⟩ <;> decide +kernel

private theorem codes_of {s : State} {n : Nat} (hd : s.mainTrie.default = none) (hn : 0 < n)
    (h : s.mainTrie.data.entries.all (fun e => decide ((e.2.getD emptyAccount).code.length < n)) = true) (a : Address) : (getAccount s a).code.length < n := by
  unfold getAccount getAccountOptional trieGet
  cases e : s.mainTrie.data.get? a with
  | none => rw [hd]; exact hn
  | some o =>
    have := List.all_eq_true.mp h (a, o) ((Dict.mem_iff _ _ _).mpr e)
    cases o with
    | none => exact hn
    | some acc => simpa using this

/-- The last case. -/
def poorCase : TestCase :=
  { key := "payment".toList, index := 1, forkName := "BerlinToLondonAt5".toList, pre := sampleTest.pre, env := sampleTest.env,
    previousHash := sampleTest.previousHash, transaction := sampleTest.transaction,
    post := { data := some 1, gas := some 1, value := some 1, hash := some (writtenBytes (wordBytes 2606329403499835044909425608392832)) } }

example : poorCase ∈ selected [("payment".toList, sampleTest)] :=
  List.mem_filter.mpr ⟨((C100_cases _).1 _).mpr ⟨("payment".toList, sampleTest), by simp, _, List.mem_cons_of_mem _ List.mem_cons_self, rfl, rfl, rfl, rfl, rfl, rfl, rfl⟩,
    by decide +kernel⟩

/-- The case before it. -/
def richCase : TestCase :=
  { poorCase with index := 0, post := { data := some 0, gas := some 1, value := some 0, hash := some (writtenBytes (wordBytes 2606329403499835044909425608392832)) } }

/-- All that `runTestCase` reads. -/
private def parts (c : TestCase) : Option (TxData × State × EnvData × BlockEnv) := do
  let d ← caseTx c
  let s ← readAlloc .berlin c.pre
  let e ← readEnv .berlin (caseEnv c)
  match blockEnvironment signingCrypto .berlin 1 e with
  | .ok (some B) => some (d, s, e, B)
  | _ => none

private def withinLimits (x : TxData × State × EnvData × BlockEnv) : Bool :=
  decide (x.2.2.2.number < 2 ^ 256 ∧ x.2.2.2.blockGasLimit < gasLimitBound .berlin ∧ x.2.2.2.baseFeePerGas < 2 ^ 256 ∧
    calculateBlobGasPrice .berlin x.2.2.2.excessBlobGas < 2 ^ 256 ∧ min 256 x.2.2.2.number ≤ x.2.2.2.blockHashes.length ∧ x.2.2.2.difficulty < 2 ^ 256) &&
  decide (supply x.2.1 < supplyLimit x.2.1.fork ∧ x.2.1.mainTrie.default = none ∧
    x.2.1.mainTrie.data.entries.all (fun e => decide ((e.2.getD emptyAccount).code.length < 1)) = true) &&
  (parseJsonTx signingCrypto sampleSign .berlin x.1).all fun tx => decide (131072 * tx.blobHashes.length < 2 ^ 64) &&
    match processTransaction signingCrypto x.2.2.2 ⟨x.2.1, BlockOutput.empty⟩ tx 0 with
    | .error (.exn (.crash .overflowError), _) => false
    | _ => true

private theorem parts_limits : ∀ c ∈ [richCase, poorCase], (parts c).any withinLimits = true := by decide +kernel

/-- Both cases meet the hypotheses of `C100_runs`. -/
private theorem payment_limits (c : TestCase) (hc : c ∈ [richCase, poorCase]) :
    ∃ d s e B, Has c.env.currentNumber (WritesNumber · 1) ∧ Names c.forkName 1 .berlin ∧ Chosen c d ∧ readAlloc .berlin c.pre = some s ∧ DescribesEnv .berlin (caseEnv c) e ∧
      blockEnvironment signingCrypto .berlin 1 e = .ok (some B) ∧ BlockFits .berlin B ∧ StateFits s ∧
      (∀ tx, parseJsonTx signingCrypto sampleSign .berlin d = some tx → 131072 * tx.blobHashes.length < 2 ^ 64) ∧
      ∀ tx b, parseJsonTx signingCrypto sampleSign .berlin d = some tx →
        processTransaction signingCrypto B ⟨s, BlockOutput.empty⟩ tx 0 ≠ .error (.exn (.crash .overflowError), b) := by
  have hl := parts_limits c hc
  have hsame : c.env.currentNumber = some (.inl "0x1".toList) ∧ c.forkName = "BerlinToLondonAt5".toList := by
    rcases List.mem_cons.mp hc with rfl | hc
    · exact ⟨rfl, rfl⟩
    · cases List.mem_singleton.mp hc; exact ⟨rfl, rfl⟩
  match hp : parts c with
  | none => rw [hp] at hl; cases hl
  | some (d, s, e, B) =>
    rw [hp] at hl
    replace hl : withinLimits (d, s, e, B) = true := hl
    unfold parts at hp
    simp only [Option.bind_eq_bind, Option.bind_eq_some_iff] at hp
    obtain ⟨d', h1, s', h2, e', h3, h4⟩ := hp
    split at h4
    · rename_i B' hB
      cases h4
      unfold withinLimits at hl
      simp only [Bool.and_eq_true, decide_eq_true_eq] at hl
      obtain ⟨⟨⟨b1, b2, b3, b4, b5, b6⟩, s1, s2, s3⟩, ht⟩ := hl
      refine ⟨d, s, e, B, ⟨_, hsame.1, (parseHexOrInt_iff _ _).mp (by decide +kernel)⟩, ?_, (C100_transaction c d).mp h1, h2, (C98_read _ _ _).mp h3, hB,
        ⟨b1, b2, b3, b4, b5, b6⟩, ⟨s1, fun a => Nat.lt_of_lt_of_le (codes_of s2 (by decide) s3 a) (by decide)⟩, fun tx htx => ?_, fun tx b htx hx => ?_⟩
      · rw [hsame.2]
        exact .inr ⟨"BerlinToLondonAt5", .berlin, .london, by decide, rfl, rfl⟩
      · rw [htx] at ht
        exact of_decide_eq_true (Bool.and_eq_true_iff.mp (show (_ && _) = true from ht)).1
      · rw [htx] at ht
        have h5 := (Bool.and_eq_true_iff.mp (show (_ && _) = true from ht)).2
        rw [hx] at h5
        cases h5
    · cases h4

/-- Both are run, and the limits of `C100_case` are kept: the root of the last case is that of the state before it, as its transaction cannot be included. -/
example (c : TestCase) (hc : c ∈ [richCase, poorCase]) : ∃ r B s d, runTestCase signingCrypto sampleSign c = some r ∧ Chosen c d ∧
    RightRoot signingCrypto sampleSign .berlin B s d r.stateRoot := by
  obtain ⟨d, s, e, B, h1, h2, h3, h4, h5, h6, h7, h8, h9, h10⟩ := payment_limits c hc
  obtain ⟨r, hr⟩ := C100_runs h1 h2 h3 h4 h5 h6 h7 h8 h9 (fun _ => h10)
  obtain ⟨f, n, d', s', e', B', ⟨v, hv, hw⟩, g2, g3, g4, -, g6, -, g7, g8⟩ := C100_case hr
  obtain ⟨v', hv', hw'⟩ := h1
  cases hv.symm.trans hv'
  have hn := Option.some.inj (((parseHexOrInt_iff _ _).mpr hw).symm.trans ((parseHexOrInt_iff _ _).mpr hw'))
  subst hn
  have hf := Option.some.inj (((C100_fork _ _ _ hw _).mpr g2).symm.trans ((C100_fork _ _ _ hw _).mpr h2))
  subst hf
  cases (Option.some.inj (((C100_transaction c _).mpr g3).symm.trans ((C100_transaction c _).mpr h3)))
  cases Option.some.inj (g4.symm.trans h4)
  cases Option.some.inj (((C98_read _ _ _).mpr g6).symm.trans ((C98_read _ _ _).mpr h5))
  cases Option.some.inj (Except.ok.inj (g7.symm.trans h6))
  exact ⟨r, B, s, d, hr, g3, g8 h7 h8 h9⟩

/-- Names of forks, in the block before a transition and after it. -/
example : Names "BerlinToLondonAt5".toList 4 .berlin ∧ Names "BerlinToLondonAt5".toList 5 .london ∧ Names "Merge".toList 0 .paris ∧
    getModuleName "Constantinople".toList (some (.inr 1)) = none :=
  ⟨.inr ⟨"BerlinToLondonAt5", .berlin, .london, by decide, rfl, rfl⟩, .inr ⟨"BerlinToLondonAt5", .berlin, .london, by decide, rfl, rfl⟩, .inl ⟨_, by decide, rfl⟩, by decide +kernel⟩

/-- A name in other letters: the file of the payment is left without a report if it also has a case for `LONDON`. -/
example : runOne signingCrypto sampleSign [("payment".toList, sampleTest), ("other".toList, { sampleTest with post := [("LONDON".toList, [{}])] })] = none :=
  C100_letters _ _ _ ⟨"other".toList, 0, "LONDON".toList, {}, sampleTest.pre, sampleTest.env, sampleTest.previousHash, sampleTest.transaction⟩
    (((C100_cases _).1 _).mpr ⟨("other".toList, { sampleTest with post := [("LONDON".toList, [{}])] }), by simp, ("LONDON".toList, [{}]), by simp, rfl, rfl, rfl, rfl, rfl, rfl,
      rfl⟩) "London".toList (by decide +kernel) (by unfold SameLetters; decide +kernel) (by decide +kernel)

end Verif.Props
