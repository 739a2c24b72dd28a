import Verif.Lemmas.ChainInv
import Verif.Lemmas.Keep
import Verif.Props.C24_C25
/-! What holds in every fork, also before spurious_dragon. -/
namespace Verif
open Spec Verif.Props

/-- Well-formed dictionaries. -/
structure Sound (s : State) : Prop where
  main : MainWF s.mainTrie
  storage : TriesWF s.storageTries

theorem State.WF.sound {s : State} (h : s.WF) : Sound s := ⟨h.main, h.storage⟩
theorem Sound.wf {s : State} (h : Sound s) (hi : s.snapshots = []) : s.WF := ⟨h.main, h.storage, fun p hp => by rw [hi] at hp; cases hp⟩

theorem Sound.modifyState' {s : State} (h : Sound s) (a : Address) (f : Account → Account) : Sound (modifyState' s a f) := by
  refine ⟨?_, ?_⟩
  · unfold Verif.modifyState' dropEmpty
    split
    · exact (h.main.set _ _).set _ _
    · exact h.main.set _ _
  · unfold Verif.modifyState' dropEmpty
    split
    · exact h.storage.del _
    · exact h.storage

theorem sound_closed : BlockClosed fun s s' => Sound s → Sound s' :=
  closed_of (fun s s' _ h1 h2 h => ⟨by rw [h1]; exact h.main, by rw [h2]; exact h.storage⟩)
    (fun _ _ _ _ h => h.modifyState' _ _) (fun _ _ _ _ h => h.modifyState' _ _)
    (fun s s' a k v he h => by
      unfold Verif.setStorage at he
      split at he
      · cases he
      · cases he; exact ⟨h.main, h.storage.set a k v⟩)
    (fun _ _ h => ⟨h.main, h.storage.del _⟩) (fun s a h => ⟨h.main.set a none, h.storage.del a⟩)
    (fun s a h => by
      rcases touchIn_cases s a with e | ⟨-, -, e⟩ <;> rw [e]
      exacts [h, ⟨h.main.set _ _, h.storage⟩])

theorem noMint_closed : MsgClosed NoMint where
  toStateClosed := noMint_state
  delegate := fun s a c _ => noMint_modify s a _ fun _ => rfl

/-- A top-level message leaves no open snapshot behind. -/
theorem top_quiet {E : Env} {msg : Message} {w w' : World} {out : MessageCallOutput} (hq : Quiet w.state)
    (h : processMessageCall E msg w = .ok (out, w')) : Quiet w'.state := by
  have hs := top_rel sound_closed.toMsgClosed h hq.wf.sound
  unfold processMessageCall at h
  rw [processMessageCallWith_eq] at h
  split at h
  · cases h
  · rename_i r msg1 s1 ha
    split at h
    · split at h
      · cases h; exact hq
      · split at h
        · cases h
        · rename_i evm w1 hx
          split at h <;> cases h
          have hsn := (processCreateMessage_snap (exec_snap E) _ _ _ _ hx).1.trans hq.snapshots
          exact ⟨hs.wf hsn, hsn, processCreateMessage_created hx hsn⟩
    · split at h
      · cases h
      · rename_i evm w1 hx
        split at h <;> cases h
        have hsn := ((processMessage_snap (exec_snap E) _ _ _ _ hx).1.trans (authorized_rel ha).1.snaps).trans hq.snapshots
        exact ⟨hs.wf hsn, hsn, processMessage_created hx hsn⟩

/-- A transaction in any fork: the state stays well-formed, no snapshot is left open, and the base fee of the gas charged and
the fee for the blobs are gone. -/
theorem supply_all {C : Crypto} {B : BlockEnv} {b b' : BlockState} {tx : Transaction} {i : Nat} {sender : Address}
    {msg : Message} {o : MessageCallOutput} {w : World} {s1 s2 : State} (hq : Quiet b.state)
    (h : Ran C B b tx i b' sender msg o w s1 s2) :
    Quiet b'.state ∧
    supply b'.state + (gasCharged b.state.fork tx o * B.baseFeePerGas + blobFee b.state.fork B tx) ≤ supply b.state := by
  have hw := hq.wf
  have hpw : (prepaid B b.state tx sender).WF := prepaid_wf hw
  have hqw : Quiet w.state := top_quiet (w := ⟨prepaid B b.state tx sender, TransientStorage.empty⟩)
    ⟨hpw, (prepaid_snapshots ..).trans hq.snapshots, (prepaid_created ..).trans hq.created⟩ h.run
  have hww := hqw.wf
  have hle := (top_rel noMint_closed h.run hpw.main.1).2
  have hpre := supply_prepaid hw h.includable
  have r1 := (refundSender_ok h.refund).2
  have r2 := (payCoinbase_ok h.pay).2
  have q1 := r1.supply hww
  have q2 := r2.supply (r1.wf hww)
  have hd := finalDeletions_ok s2 o
  have d6 := hd.wf (r2.wf (r1.wf hww))
  have d7 := hd.supplyLe (r2.wf (r1.wf hww))
  have hu : gasCharged b.state.fork tx o ≤ tx.gas := gasCharged_le o h.includable.valid.floor
  have e : (tx.gas - gasCharged b.state.fork tx o) * price B.baseFeePerGas tx + gasCharged b.state.fork tx o * tip B.baseFeePerGas tx +
      gasCharged b.state.fork tx o * B.baseFeePerGas = tx.gas * price B.baseFeePerGas tx := by
    rw [Nat.add_assoc, ← Nat.mul_add, show tip B.baseFeePerGas tx + B.baseFeePerGas = price B.baseFeePerGas tx by unfold price; omega,
      ← Nat.add_mul]
    congr 1; omega
  have hres : b'.state = finalDeletions s2 o := by rw [h.result]
  rw [hres]
  refine ⟨⟨d6, hd.snapshots.trans (r2.snapshots.trans (r1.snapshots.trans hqw.snapshots)),
    hd.created.trans (r2.created.trans (r1.created.trans hqw.created))⟩, ?_⟩
  simp only at hle
  omega

end Verif
