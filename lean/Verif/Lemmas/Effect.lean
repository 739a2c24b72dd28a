import Verif.Lemmas.Strict
/-! The effect of one instruction, classified once and used by all whole-execution proofs. -/
namespace Verif

/-- What is known of the machine when an instruction raises: the stores were not touched, gas did not grow. -/
structure ErrLoc (m m' : Mach) : Prop where
  world : m'.world = m.world
  message : m'.evm.message = m.evm.message
  gas : m'.evm.gasLeft ≤ m.evm.gasLeft

theorem Loc.errLoc {m m' : Mach} (h : Loc m m') : ErrLoc m m' := ⟨h.world, h.message, h.gas⟩

/-- Parts of the frame that no instruction changes, warm sets and stack bound. -/
structure FrameLoc (m m' : Mach) : Prop where
  message : m'.evm.message = m.evm.message
  code : m'.evm.code = m.evm.code
  jumps : m'.evm.validJumpDestinations = m.evm.validJumpDestinations
  error : m'.evm.error = m.evm.error
  addrs : ∀ a ∈ m.evm.accessedAddresses, a ∈ m'.evm.accessedAddresses
  keys : ∀ a ∈ m.evm.accessedStorageKeys, a ∈ m'.evm.accessedStorageKeys
  stack : m.evm.stack.length ≤ 1024 → m'.evm.stack.length ≤ 1024

theorem Loc.frameLoc {m m' : Mach} (h : Loc m m') : FrameLoc m m' :=
  ⟨h.message, h.code, h.jumps, h.error, h.addrs, h.keys, h.stack⟩

/-- The account whose code a frame runs for. -/
abbrev Mach.self (m : Mach) : Address := m.evm.message.currentTarget

/-- The accounts to delete of a frame, with those of the enclosing frames before london. -/
def Mach.sdBase (m : Mach) : List Address :=
  if m.world.state.fork.since .london then m.evm.accountsToDelete
  else setUpdate m.evm.accountsToDelete m.evm.message.parentsToDelete

/-- The refund for a SELFDESTRUCT: there is none since london. -/
def Mach.sdRefund (m : Mach) : Int :=
  if m.world.state.fork.since .london ∨ m.self ∈ m.sdBase then 0 else 24000

theorem selfdestructRefund_eq (m : Mach) : selfdestructRefund m.self m =
    .ok () { m with evm := { m.evm with accountsToDelete := m.sdBase, refundCounter := m.evm.refundCounter + m.sdRefund } } := by
  unfold selfdestructRefund Mach.sdRefund Mach.sdBase
  by_cases h : m.world.state.fork.since .london = true
  · simp only [h, if_true, true_or, Int.add_zero]
  · simp only [h, Bool.false_eq_true, if_false, false_or]
    split <;> simp [REFUND_SELF_DESTRUCT]

/-- How the message given to a child frame relates to the calling frame (`m`: at the start of the instruction, `m1`: at
the moment of the call). -/
structure ChildMsg (m m1 : Mach) (msg : Message) : Prop where
  depth : msg.depth = m.evm.message.depth + 1
  depthLe : msg.depth ≤ 1024
  gas : m1.evm.gasLeft + msg.gas < m.evm.gasLeft
  static : m.evm.message.isStatic = true → msg.isStatic = true ∧ 
    (msg.shouldTransferValue = true → msg.value = 0 ∨ msg.currentTarget = m.self)
  funds : msg.shouldTransferValue = true →
    msg.caller = m.self ∧ msg.value ≤ (getAccount m1.world.state m.self).balance
  addrs : msg.accessedAddresses = m1.evm.accessedAddresses
  keys : msg.accessedStorageKeys = m1.evm.accessedStorageKeys
  parents : msg.parentsToDelete = setUpdate m1.evm.message.parentsToDelete m1.evm.accountsToDelete

/-- A call-family child. -/
structure CallMsg (m m1 : Mach) (msg : Message) : Prop extends ChildMsg m m1 msg where
  locals : Loc m m1
  target : msg.target = some msg.currentTarget
  codeOwner : msg.code ≠ [] → msg.currentTarget = m.self ∨ (getAccount m.world.state msg.currentTarget).code ≠ []
  noTransfer : msg.shouldTransferValue = false → msg.currentTarget = m.self
  codeFrom : msg.currentTarget = m.self ∨ msg.code = (getAccount m.world.state msg.currentTarget).code ∨
    isValidDelegation (getAccount m.world.state msg.currentTarget).code = true

/-- A create-family child. -/
structure CreateMsg (m m1 : Mach) (msg : Message) : Prop extends ChildMsg m m1 msg where
  frame : FrameLoc m m1
  world : m1.world = { m.world with state := incrementNonce m.world.state m.self }
  logs : m1.evm.logs = m.evm.logs
  refund : m1.evm.refundCounter = m.evm.refundCounter
  deleted : m1.evm.accountsToDelete = m.evm.accountsToDelete
  touched : m1.evm.touchedAccounts = m.evm.touchedAccounts
  notStatic : m.evm.message.isStatic = false
  msgStatic : msg.isStatic = false
  target : msg.target = none
  codeAddress : msg.codeAddress = none
  caller : msg.caller = m.self
  transfer : msg.shouldTransferValue = true
  data : msg.data = []
  codeSize : m.world.state.fork.since .shanghai = true → msg.code.length ≤ MAX_INIT_CODE_SIZE
  nonce : (getAccount m.world.state m.self).nonce ≠ 2 ^ 64 - 1
  fresh : accountHasCodeOrNonce m.world.state msg.currentTarget = false ∧
    accountHasStorage m.world.state msg.currentTarget = false
  balance : msg.value ≤ (getAccount m.world.state m.self).balance
  warm : msg.currentTarget ∈ m1.evm.accessedAddresses

/-- The calling frame after a child returned. -/
structure Incorporated (m1 : Mach) (child : Evm) (w : World) (m2 : Mach) : Prop where
  frame : FrameLoc m1 m2
  world : m2.world = w
  gas : m2.evm.gasLeft = m1.evm.gasLeft + child.gasLeft
  onError : child.error.isSome = true →
    m2.evm.logs = m1.evm.logs ∧ m2.evm.refundCounter = m1.evm.refundCounter ∧
    m2.evm.accountsToDelete = m1.evm.accountsToDelete ∧
    m2.evm.accessedAddresses = m1.evm.accessedAddresses ∧ m2.evm.accessedStorageKeys = m1.evm.accessedStorageKeys
  onSuccess : child.error.isSome = false →
    m2.evm.logs = m1.evm.logs ++ child.logs ∧
    m2.evm.refundCounter = m1.evm.refundCounter + child.refundCounter ∧
    m2.evm.accountsToDelete = setUpdate m1.evm.accountsToDelete child.accountsToDelete ∧
    m2.evm.accessedAddresses = setUpdate m1.evm.accessedAddresses child.accessedAddresses ∧
    m2.evm.accessedStorageKeys = setUpdate m1.evm.accessedStorageKeys child.accessedStorageKeys
  touchedOnError : child.error.isSome = true → m2.evm.touchedAccounts = touchedOnError w.state child m1.evm.touchedAccounts
  touched : child.error.isSome = false → m2.evm.touchedAccounts =
    touchedIfEmpty w.state child.message.currentTarget (setUpdate m1.evm.touchedAccounts child.touchedAccounts)

/-- The instructions by the kind of effect they can have. -/
inductive Kind | pure | sstore | tstore | log | selfdestruct | create | call
deriving DecidableEq

/-- The kind of an instruction. -/
def kindOf : Op → Kind
  | .sstore => .sstore
  | .tstore => .tstore
  | .log _ => .log
  | .selfdestruct => .selfdestruct
  | .create | .create2 => .create
  | .call | .callcode | .delegatecall | .staticcall => .call
  | _ => .pure

/-- Everything one instruction of kind `k` can do. `m` is the machine before, the index the result. -/
inductive OpEffect (k : Kind) (pm pcm : Sub) (m : Mach) : Res Unit → Prop
  /-- An instruction (or a refused call or create) without outside effect. -/
  | ok (m' : Mach) (h : Loc m m') (hk : k = .pure ∨ (k = .call ∨ k = .create) ∧ m'.evm.stack.head? = some 0)
      (strict : m'.evm.gasLeft < m.evm.gasLeft ∨ m'.evm.running = false) :
      OpEffect k pm pcm m (.ok () m')
  /-- An exception raised by the instruction itself. -/
  | err (e : Exn) (m' : Mach) (h : ErrLoc m m') (he : e ≠ .outOfFuel) : OpEffect k pm pcm m (.err e m')
  | sstore (hk : k = .sstore) (m1 : Mach) (key new orig : Word) (s' : State) (h : Loc m m1) (hg : m1.evm.gasLeft < m.evm.gasLeft)
      (hstatic : m.evm.message.isStatic = false) (hstipend : m.world.state.fork.since .istanbul = true → 2300 < m.evm.gasLeft)
      (horig : sstoreOriginal m.world.state m.self key = .ok orig)
      (hset : setStorage m.world.state m.self key new = .ok s')
      (hwarm : m.world.state.fork.since .berlin = true → (m.self, key) ∈ m1.evm.accessedStorageKeys) :
      OpEffect k pm pcm m (.ok () { m1 with
        world := { m.world with state := s' }
        evm := { m1.evm with
          refundCounter := m.evm.refundCounter + sstoreRefund m.world.state.fork orig (getStorage m.world.state m.self key) new } })
  | tstore (hk : k = .tstore) (m1 : Mach) (key new : Word) (h : Loc m m1) (hg : m1.evm.gasLeft < m.evm.gasLeft)
      (hstatic : m.evm.message.isStatic = false) :
      OpEffect k pm pcm m (.ok () { m1 with
        world := { m.world with transient := setTransientStorage m.world.transient m.self key new } })
  | log (hk : k = .log) (m1 : Mach) (topics : List Word) (data : Bytes) (h : Loc m m1) (hg : m1.evm.gasLeft < m.evm.gasLeft)
      (hstatic : m.evm.message.isStatic = false)
      (hpay : m1.evm.gasLeft + (375 + 375 * topics.length + 8 * data.length) ≤ m.evm.gasLeft) :
      OpEffect k pm pcm m (.ok () { m1 with evm := { m1.evm with logs := m.evm.logs ++ [⟨m.self, topics, data⟩] } })
  | selfdestruct (hk : k = .selfdestruct) (m1 : Mach) (beneficiary : Address) (s1 : State) (h : Loc m m1)
      (hg : m.world.state.fork.since .tangerineWhistle = true → m1.evm.gasLeft < m.evm.gasLeft)
      (hstatic : m.evm.message.isStatic = false)
      (hrun : m1.evm.running = false)
      (hmove : selfdestructState m.world.state m.self beneficiary = .ok s1) :
      OpEffect k pm pcm m (.ok () { m1 with
        world := { m.world with state := s1 }
        evm := { m1.evm with
          accountsToDelete := if selfdestructDeletes m.world.state m.self then setAdd m.sdBase m.self else m.sdBase
          refundCounter := m.evm.refundCounter + m.sdRefund
          touchedAccounts := touchedIfEmpty s1 beneficiary m.evm.touchedAccounts } })
  | collision (hk : k = .create) (m1 : Mach) (a : Address) (h : Loc m m1) (hg : m1.evm.gasLeft < m.evm.gasLeft)
      (hgas : 64 * m1.evm.gasLeft ≤ m.evm.gasLeft)
      (hstatic : m.evm.message.isStatic = false)
      (hcol : accountHasCodeOrNonce m.world.state a = true ∨ accountHasStorage m.world.state a = true)
      (hnonce : (getAccount m.world.state m.self).nonce ≠ 2 ^ 64 - 1) (htop : m1.evm.stack.head? = some 0) :
      OpEffect k pm pcm m (.ok () { m1 with world := { m.world with state := incrementNonce m.world.state m.self } })
  | createErr (hk : k = .create) (m1 : Mach) (msg : Message) (e : Exn) (w : World) (m' : Mach) (h : CreateMsg m m1 msg)
      (hsub : pcm msg m1.world = .error (e, w)) (hw : m'.world = w) : OpEffect k pm pcm m (.err e m')
  | create (hk : k = .create) (m1 : Mach) (msg : Message) (child : Evm) (w : World) (m2 : Mach) (h : CreateMsg m m1 msg)
      (hsub : pcm msg m1.world = .ok (child, w)) (hinc : Incorporated m1 child w m2)
      (htop : m2.evm.stack.head? = some (if child.error.isSome then 0 else addressWord child.message.currentTarget)) : OpEffect k pm pcm m (.ok () m2)
  | callErr (hk : k = .call) (m1 : Mach) (msg : Message) (e : Exn) (w : World) (m' : Mach) (h : CallMsg m m1 msg)
      (hsub : pm msg m1.world = .error (e, w)) (hw : m'.world = w) : OpEffect k pm pcm m (.err e m')
  | call (hk : k = .call) (m1 : Mach) (msg : Message) (child : Evm) (w : World) (m2 : Mach) (h : CallMsg m m1 msg)
      (hsub : pm msg m1.world = .ok (child, w)) (hinc : Incorporated m1 child w m2)
      (htop : m2.evm.stack.head? = some (if child.error.isSome then 0 else 1)) : OpEffect k pm pcm m (.ok () m2)
  /-- The child returned, but `U256(len(output))` overflowed. -/
  | callOverflow (hk : k = .call) (m1 : Mach) (msg : Message) (child : Evm) (w : World) (m' : Mach) (h : CallMsg m m1 msg)
      (hsub : pm msg m1.world = .ok (child, w)) (hlen : 2 ^ 256 ≤ child.output.length) :
      OpEffect k pm pcm m (.err (.crash .overflowError) m')

end Verif
