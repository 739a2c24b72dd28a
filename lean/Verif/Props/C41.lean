import Verif.Lemmas.Deposit
/-! C41: deposit requests. -/
namespace Verif
open Spec

/-- C41: the data of a deposit event is accepted exactly if it has the ABI layout of the five fields (576 bytes; the
padding is not looked at), and the request is their 192 bytes in order. -/
theorem C41_event (data r : Bytes) : extractDepositData data = some r ↔ DepositEvent data r := extractDeposit_iff data r

/-- C41: the sizes. -/
theorem C41_event_length (data r : Bytes) (h : extractDepositData data = some r) : data.length = 576 ∧ r.length = 192 := by
  obtain ⟨_, _, _, _, _, _, _, _, h1, h2, h3, h4, h5, h6, h7, h8, rfl, rfl⟩ := (C41_event data r).mp h
  constructor
  · unfold depositLayout
    simp only [List.length_append, abiWord_length, h1, h2, h3, h4, h5, h6, h7, h8]
  · simp only [List.length_append, h1, h3, h4, h6, h7]

example : DepositEvent
    (depositLayout (List.replicate 48 1) (List.replicate 16 0) (List.replicate 32 2) (List.replicate 8 3) (List.replicate 24 0)
      (List.replicate 96 4) (List.replicate 8 5) (List.replicate 24 0))
    (List.replicate 48 1 ++ List.replicate 32 2 ++ List.replicate 8 3 ++ List.replicate 96 4 ++ List.replicate 8 5) :=
  ⟨_, _, _, _, _, _, _, _, rfl, rfl, rfl, rfl, rfl, rfl, rfl, rfl, rfl, rfl⟩

/-- C41: the deposit requests of a block are those of its receipts' deposit logs, in order; if one of these logs is not a
well-formed deposit event, the block is invalid. -/
theorem C41_requests (out : BlockOutput) (rs : List Receipt) (h : ReceiptsAre out rs) :
    (∀ r, parseDepositRequests out = .ok r ↔ Deposits (rs.flatMap (·.logs)) r) ∧
    ((¬ ∃ r, Deposits (rs.flatMap (·.logs)) r) → parseDepositRequests out = .error .invalidBlock) := by
  have hk := fun r => parseDepositKeys_iff out.receiptsTrie out.receiptKeys rs h.1 h.2 [] r
  unfold parseDepositRequests
  refine ⟨fun r => ?_, fun hn => ?_⟩
  · rw [(hk r).1]
    exact ⟨fun ⟨_, h1, h2⟩ => h2 ▸ h1, fun h => ⟨r, h, rfl⟩⟩
  · match hp : parseDepositKeys out.receiptsTrie [] out.receiptKeys with
    | .ok r => obtain ⟨r', hr, _⟩ := (hk r).1.mp hp; exact absurd ⟨r', hr⟩ hn
    | .error e => rw [(hk []).2 e hp]

/-- C41: the requests of given logs are unique. -/
theorem C41_unique (logs : List Log) (r r' : Bytes) (h : Deposits logs r) (h' : Deposits logs r') : r = r' := by
  have h1 := (parseDepositLogs_iff logs [] r).mpr ⟨r, h, rfl⟩
  have h2 := (parseDepositLogs_iff logs [] r').mpr ⟨r', h', rfl⟩
  exact Option.some.inj (h1.symm.trans h2)

/-- A block output with one receipt. -/
example : ReceiptsAre
    { BlockOutput.empty with
      receiptKeys := [indexKey 0]
      receiptsTrie := trieSet BlockOutput.empty.receiptsTrie (indexKey 0) (some (.inl ⟨.succeeded true, 21000, 0, [⟨5, [6], [7]⟩]⟩)) }
    [⟨.succeeded true, 21000, 0, [⟨5, [6], [7]⟩]⟩] := by
  refine ⟨rfl, fun i k r h1 h2 => ?_⟩
  match i with
  | 0 =>
    have e1 := Option.some.inj h1
    have e2 := Option.some.inj h2
    subst e1 e2
    exact ⟨_, rfl, rfl⟩
  | i + 1 => cases h2

end Verif
