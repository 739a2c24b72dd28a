import Verif.Spec.ContractAddress
import Verif.Lemmas.RlpSize
import Verif.Props.C24_C25
import Verif.Props.C69
import Verif.Props.C75
/-! Property C87: contract addresses. -/
namespace Verif.Props
open Verif Verif.Spec Verif.Pow Ethash

theorem origin_nonce (C : Crypto) (a : Address) (n : Nat) : computeContractAddress C a n = (Origin.byNonce a n).address C.keccak256 := by
  apply BitVec.eq_of_toNat_eq
  unfold computeContractAddress toAddressMasked Origin.address Origin.preimage
  rw [BitVec.toNat_setWidth, BitVec.toNat_ofNat, Nat.mod_mod, Rlp.ofAddress, addressBytes]

theorem origin_new (E : Env) (m : Mach) (o : CreateOperands) : newAddress E m o = (originOf m o).address E.crypto.keccak256 := by
  apply BitVec.eq_of_toNat_eq
  unfold newAddress originOf Origin.address
  dsimp only
  rw [BitVec.toNat_setWidth, BitVec.toNat_ofNat, Nat.mod_mod]
  cases o.salt with
  | none => simp only [Origin.preimage, Rlp.ofAddress, addressBytes]
  | some salt => simp only [Origin.preimage, addressBytes, wordBytes, List.append_assoc, List.nil_append, List.cons_append]

/-- **C87.** Every creation transaction that is included runs its data at the address of its sender and nonce. -/
theorem C87_transaction {C : Crypto} {B : BlockEnv} {b b' : BlockState} {tx : Transaction} {i : Nat} (hs : Quiet b.state)
    (h : processTransaction C B b tx i = .ok b') (ht : tx.to = none) :
    ∃ sender env msg start out finish, Executed C B b.state tx sender env msg start out finish ∧ msg.code = tx.data ∧
      msg.currentTarget = (Origin.byNonce sender tx.nonce.toNat).address C.keccak256 := by
  obtain ⟨sender, msg, o, w, s1, s2, hr⟩ := processTransaction_ok.mp h
  have he := executed_of_ran hs hr
  obtain ⟨c1, -, c2⟩ := he.create ht
  exact ⟨sender, _, msg, _, o, _, he, c1, by rw [c2, origin_nonce]⟩

/-- **C87.** CREATE and CREATE2 run init code at no other address than that of its origin. -/
theorem C87_instruction (E : Env) (pm : Sub) (m : Mach) (hm : WithinLimits m) (k : Bool) (o : CreateOperands)
    (ho : createOperands k m.evm.stack = some o) :
    OnlySends (fun msg => msg.currentTarget = (originOf m o).address E.crypto.keccak256) (fun pcm => opStep E pm pcm (createInstr k) m) := by
  intro run run' h
  refine C75_create_sends E pm m hm k o ho run run' fun msg w hp => h msg w ?_
  show msg.currentTarget = _
  rw [hp.account, origin_new]

/-- The encoding for a nonce begins with a byte below 0xff, and is small. -/
theorem nonce_preimage {keccak : Bytes → BitVec 256} {a : Address} {n : Nat} (h : n < 2 ^ 256) :
    (∃ x r, (Origin.byNonce a n).preimage keccak = x :: r ∧ x ≠ 0xff) ∧ Rlp.Small (.list [.bytes (toBE 20 a.toNat), .ofNat n]) := by
  have h1 : (Rlp.encodeBytes (natBytes n)).length ≤ 33 := by
    have hb := byteLength_le (k := 32) (show n < 256 ^ 32 by rwa [show (256 : Nat) ^ 32 = 2 ^ 256 by decide +kernel])
    have hl := natBytes_length n
    unfold Rlp.encodeBytes
    split
    · split <;> simp [Rlp.lengthPrefix]
    · rw [List.length_append, hl]
      unfold Rlp.lengthPrefix
      rw [if_pos (by omega)]
      simp only [List.length_singleton]; omega
  have h2 : (Rlp.encodeBytes (toBE 20 a.toNat)).length = 21 := by
    have hl : (toBE 20 a.toNat).length = 20 := toBE_length _ _
    unfold Rlp.encodeBytes
    split
    · rename_i x hx; rw [hx] at hl; simp at hl
    · rw [List.length_append, hl]
      unfold Rlp.lengthPrefix
      rw [if_pos (by omega), List.length_singleton]
  have h3 : (Rlp.encodeSeq [.bytes (toBE 20 a.toNat), .ofNat n]).length ≤ 54 := by
    simp only [Rlp.encodeSeq, Rlp.encode, Rlp.ofNat, List.length_append, h2, List.length_nil]
    omega
  have h4 : Rlp.encode (.list [.bytes (toBE 20 a.toNat), .ofNat n]) =
      UInt8.ofNat (0xc0 + (Rlp.encodeSeq [.bytes (toBE 20 a.toNat), .ofNat n]).length) :: Rlp.encodeSeq [.bytes (toBE 20 a.toNat), .ofNat n] := by
    rw [Rlp.encode]
    unfold Rlp.lengthPrefix
    rw [if_pos (by omega), List.singleton_append]
  refine ⟨⟨_, _, h4, fun e => ?_⟩, Rlp.small_of_length _ (by rw [h4, List.length_cons]; omega)⟩
  have := congrArg UInt8.toNat e
  rw [UInt8.toNat_ofNat', Nat.mod_eq_of_lt (by omega), show (0xff : UInt8).toNat = 255 from rfl] at this
  omega

/-- The bytes that are hashed tell origins apart. -/
theorem preimage_inj {keccak : Bytes → BitVec 256} {o o' : Origin} (h : o.Sane) (h' : o'.Sane) (he : o.preimage keccak = o'.preimage keccak)
    (hc : ∀ x ∈ o.hashedCode, ∀ y ∈ o'.hashedCode, keccak x = keccak y → x = y) : o = o' := by
  have inj20 : ∀ {a b : Address}, toBE 20 a.toNat = toBE 20 b.toNat → a = b := fun e => addressBytes_inj e
  have inj32 : ∀ {a b : Word}, toBE 32 a.toNat = toBE 32 b.toNat → a = b := fun e => wordBytes_inj e
  cases o with
  | byNonce a n =>
    cases o' with
    | byNonce b k =>
      have := Rlp.encode_inj (nonce_preimage (keccak := keccak) h).2 (nonce_preimage (keccak := keccak) h').2 he
      simp only [Rlp.list.injEq, List.cons.injEq, Rlp.bytes.injEq, and_true] at this
      rw [inj20 this.1, Rlp.ofNat_inj this.2]
    | bySalt b salt code =>
      obtain ⟨x, r, e, hx⟩ := (nonce_preimage (keccak := keccak) (a := a) h).1
      rw [e] at he
      exact absurd (List.cons.inj he).1 hx
  | bySalt a salt code =>
    cases o' with
    | byNonce b k =>
      obtain ⟨x, r, e, hx⟩ := (nonce_preimage (keccak := keccak) (a := b) h').1
      rw [e] at he
      exact absurd (List.cons.inj he).1.symm hx
    | bySalt b salt' code' =>
      have e := (List.cons.inj he).2
      obtain ⟨e1, e⟩ := List.append_inj e (by rw [toBE_length, toBE_length])
      obtain ⟨e2, e3⟩ := List.append_inj e (by rw [toBE_length, toBE_length])
      rw [inj20 e1, inj32 e2, hc code (by simp [Origin.hashedCode]) code' (by simp [Origin.hashedCode]) (inj32 e3)]

/-- **C87.** Contracts of different origins have different addresses: another creator, another nonce, another salt, other init code, or CREATE
instead of CREATE2. (Among what is hashed there is no collision of the last 20 bytes.) -/
theorem C87_apart (keccak : Bytes → BitVec 256) (o o' : Origin) (h : o.Sane) (h' : o'.Sane) (hne : o ≠ o')
    (hc : NoShortCollision keccak ([o.preimage keccak, o'.preimage keccak] ++ o.hashedCode ++ o'.hashedCode)) :
    o.address keccak ≠ o'.address keccak := by
  intro he
  apply hne
  have e := congrArg BitVec.toNat he
  unfold Origin.address at e
  rw [BitVec.toNat_ofNat, BitVec.toNat_ofNat, Nat.mod_mod, Nat.mod_mod] at e
  refine preimage_inj (keccak := keccak) h h' (hc _ (by simp) _ (by simp) e) fun x hx y hy hk => hc x (by simp [hx]) y (by simp [hy]) (by rw [hk])

/-- **C87.** No two creation transactions in the whole history, from frontier to osaka, create at the same address. -/
theorem C87_history {C : Crypto} {K : Hashes} {c c' : PowChain Txs} {bs : List (PowFork × PowBlock Txs)} {chain : BlockChain}
    {bs' : List ChainBlock} (hq : Quiet c.state) (h : Mined C K c bs c') (hf : Fork.since .paris c'.state.fork = true)
    (h' : Imports C (merge c') bs' chain) :
    (minedTxs bs ++ importedTxs bs').Pairwise fun t t' => ∀ f f' tx tx' sender sender', decodeTransaction .osaka t = .ok tx →
      decodeTransaction .osaka t' = .ok tx' → recoverSender C f c.chainId tx = .ok sender → recoverSender C f' c.chainId tx' = .ok sender' →
      NoShortCollision C.keccak256 [(Origin.byNonce sender tx.nonce.toNat).preimage C.keccak256, (Origin.byNonce sender' tx'.nonce.toNat).preimage C.keccak256] →
      (Origin.byNonce sender tx.nonce.toNat).address C.keccak256 ≠ (Origin.byNonce sender' tx'.nonce.toNat).address C.keccak256 := by
  refine (C69_order hq h hf h').imp ?_
  intro t t' hlt f f' tx tx' a a' e1 e2 e3 e4 hc
  refine C87_apart _ _ _ tx.nonce.isLt tx'.nonce.isLt (fun e => ?_) (by simpa [Origin.hashedCode] using hc)
  obtain ⟨rfl, hn⟩ := Origin.byNonce.inj e
  exact absurd (hlt f f' tx tx' a e1 e2 e3 e4) (by omega)

/-! ### Concrete cases -/

/-- A toy hash function without collisions among these inputs. -/
def addressHash (b : Bytes) : BitVec 256 := BitVec.ofNat 256 (fromBE (7 :: b) % (2 ^ 160 - 47))

example : NoShortCollision addressHash ([(Origin.byNonce 77 0).preimage addressHash, (Origin.bySalt 77 5 [0x00]).preimage addressHash] ++
    (Origin.byNonce 77 0).hashedCode ++ (Origin.bySalt 77 5 [0x00]).hashedCode) ∧
    NoShortCollision addressHash [(Origin.byNonce 77 0).preimage addressHash, (Origin.byNonce 77 1).preimage addressHash] ∧
    (Origin.byNonce 77 0).Sane ∧ (Origin.byNonce 77 0).preimage addressHash = [0xd6, 0x94, 0, 0, 0, 0, 0, 0, 0, 0, 0, 0, 0, 0, 0, 0, 0, 0, 0, 0, 0, 77, 0x80] := by
  refine ⟨?_, ?_, ?_, ?_⟩
  · decide +kernel
  · decide +kernel
  · exact Nat.two_pow_pos 256
  · decide +kernel

/-- A history as in `C87_history`, with a transaction. -/
example : Quiet powEvmChain.state ∧ ∃ c' chain, Mined sampleCrypto sampleK powEvmChain [(.frontier, powEvmBlock)] c' ∧
    Fork.since .paris c'.state.fork = true ∧ Imports sampleCrypto (merge c') [] chain ∧ minedTxs [(.frontier, powEvmBlock)] ≠ [] := by
  obtain ⟨c', h, -, hn⟩ := powEvm_mined_to .grayGlacier (by decide)
  exact ⟨powEvm_quiet, _, _, h.1, by rw [h.2]; rfl, .upgrade .cancun rfl (.nil _), by decide⟩

/-- A creation transaction of account 77. -/
example : Quiet sampleState ∧ (match processTransaction sampleCrypto sampleBlockEnv ⟨sampleState, BlockOutput.empty⟩ (.legacy ⟨0, 10, 60000, none, 0, [0x00], 27, 77, 1⟩) 0 with
    | .ok _ => true | .error _ => false) = true := by
  refine ⟨sample_idle.quiet, ?_⟩
  decide +kernel

end Verif.Props
