import Verif.Model.State
/-! Total ether, as the sum of the balances of all present accounts. -/
namespace Verif

/-- Balance held under an entry of the account trie. -/
def balanceOf : Option Account → Nat
  | none => 0
  | some acc => acc.balance.toNat

/-- Sum of the balances of all accounts of a state. -/
def supply (s : State) : Nat := (s.mainTrie.data.entries.map (fun e => balanceOf e.2)).sum

end Verif
