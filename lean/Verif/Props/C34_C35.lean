import Verif.Lemmas.RootContents
import Verif.Lemmas.WholeRel
import Verif.Props.C01_C05
/-!
C34: roots depend only on contents. C35: roots determine contents.
-/
namespace Verif.Props
open Verif Spec

/-! ## C34 -/

/-- **C34**, the recursion bound of the model of `patricialize` has no effect: with any larger bound the result is the
same. -/
theorem C34_fuel (C : Crypto) (obj : List (Bytes × Bytes)) (hn : (obj.map Prod.fst).Nodup) (n : Nat) :
    patricializeF C (maxKeyLength obj + 2 + n) obj 0 = patricialize C obj 0 :=
  patricializeF_fuel _ (level_zero hn) (le_maxKeyLength obj) (by omega) (by omega)

/-- **C34**, the root of a trie is the same for all orders of its entries. (If the trie hashes its keys, no two of them
may have the same hash.) -/
theorem C34_root (C : Crypto) (secured : Bool) (l l' : List (Bytes × Bytes)) (hn : (l.map Prod.fst).Nodup)
    (hn' : (l'.map Prod.fst).Nodup) (hsame : ∀ k v, (k, v) ∈ l ↔ (k, v) ∈ l')
    (hc : secured = true → NoCollision C (l.map Prod.fst)) : trieRoot C secured l = trieRoot C secured l' := by
  refine trieRoot_perm (trieKeys_nodup hn ?_) ?_
  · cases secured with
    | false => intro x hx; simp at hx
    | true => simpa using hc rfl
  · rw [List.perm_ext_iff_of_nodup (nodup_of_keys hn) (nodup_of_keys hn')]
    exact fun e => hsame e.1 e.2

/-- A trie after a sequence of `trie_set` calls on an empty one; `None` deletes. -/
def trieAfter {V : Type} [DecidableEq V] (ops : List (Bytes × Option V)) : Trie Bytes (Option V) :=
  ops.foldl (fun t op => trieSet t op.1 op.2) ⟨false, none, Dict.empty⟩

theorem trieAfter_facts {V : Type} [DecidableEq V] (ops : List (Bytes × Option V)) :
    (trieAfter ops).secured = false ∧ (trieAfter ops).default = none ∧ (trieAfter ops).WF := by
  have h : ∀ (ops : List (Bytes × Option V)) (t : Trie Bytes (Option V)), t.secured = false → t.default = none → t.WF →
      (ops.foldl (fun t op => trieSet t op.1 op.2) t).secured = false ∧
      (ops.foldl (fun t op => trieSet t op.1 op.2) t).default = none ∧ (ops.foldl (fun t op => trieSet t op.1 op.2) t).WF := by
    intro ops
    induction ops with
    | nil => intro t h1 h2 h3; exact ⟨h1, h2, h3⟩
    | cons op r ih =>
      intro t h1 h2 h3
      exact ih _ ((trieSet_secured _ _ _).trans h1) (by rw [trieSet_default]; exact h2) (trieSet_wf h3 _ _)
  exact h ops _ rfl rfl (by intro k v h; simp at h)

/-- **C34**, histories of insertions and deletions: two sequences of `trie_set` calls after which every key reads the same
give the same root. (These are the tries of transactions, receipts and withdrawals, whose keys are not hashed.) -/
theorem C34_history {V : Type} [DecidableEq V] (C : Crypto) (enc : V → Bytes) (ops ops' : List (Bytes × Option V))
    (hsame : ∀ k, trieGet (trieAfter ops) k = trieGet (trieAfter ops') k) :
    indexTrieRoot C enc (trieAfter ops) = indexTrieRoot C enc (trieAfter ops') := by
  obtain ⟨h1, h2, h3⟩ := trieAfter_facts ops
  obtain ⟨h1', h2', h3'⟩ := trieAfter_facts ops'
  unfold indexTrieRoot
  rw [h1, h1']
  refine trieRoot_perm (trieKeys_nodup ?_ (by intro x hx; simp at hx)) ?_
  · rw [List.map_map]; exact (trieAfter ops).data.nodup
  · exact (Dict.perm_of_get? fun k => Trie.get?_of_trieGet h3 h3' (h2.trans h2'.symm) hsame k).map _

/-- Two states that answer all reads alike. -/
def SameState (s s' : State) : Prop :=
  (∀ a, getAccountOptional s a = getAccountOptional s' a) ∧ ∀ a k, getStorage s a k = getStorage s' a k

/-- **C34**, the state: two well-nested sequences of calls of the functions of osaka/state.py, with any commits and
rollbacks, after which every account and every slot reads the same, give the same state root. -/
theorem C34_state (C : Crypto) (p p' : Prog) (w w' : World) (h : p.exec ⟨State.empty, TransientStorage.empty⟩ = .ok w)
    (h' : p'.exec ⟨State.empty, TransientStorage.empty⟩ = .ok w') (hk : KeysDiffer C w.state) (hsame : SameState w.state w'.state) :
    stateRoot C w.state = stateRoot C w'.state := by
  have he : Secured State.empty := ⟨rfl, fun a t hx => by simp [State.empty] at hx⟩
  exact stateRoot_reads (C03_reachable_wf p w h).state (C03_reachable_wf p' w' h').state (Secured.prog p he h) (Secured.prog p' he h')
    (p.exec_snaps h).1 (p'.exec_snaps h').1 hk hsame.1 hsame.2

theorem imports_idle {C : Crypto} {c c' : BlockChain} {bs : List ChainBlock} (h : Imports C c bs c') (hi : Idle c.state) : Idle c'.state := by
  induction h with
  | nil c => exact hi
  | cons h t ih =>
    refine ih ?_
    obtain ⟨-, -, -, -, b, k, hb, hs, -⟩ := stateTransition_ok h
    rw [hs]; exact (body_history hb).idle hi
  | upgrade f hf t ih => exact ih (applyFork_idle (since_later hf hi.fork) hi)

/-- **C34**, chains: the states after two histories of imported blocks have the same root if all reads agree. -/
theorem C34_chain (C : Crypto) (c c' d d' : BlockChain) (bs bs' : List ChainBlock) (hi : Idle c.state) (hi' : Idle c'.state)
    (hsec : Secured c.state) (hsec' : Secured c'.state) (h : Imports C c bs d) (h' : Imports C c' bs' d')
    (hk : KeysDiffer C d.state) (hsame : SameState d.state d'.state) : stateRoot C d.state = stateRoot C d'.state := by
  have hu : ∀ (s : State) (f : Fork), f.since s.fork = true → Secured s → Secured { s with fork := f } := fun _ _ _ h => h.of_eq rfl rfl
  have i := imports_idle h hi
  have i' := imports_idle h' hi'
  exact stateRoot_reads i.wf i'.wf (imports_rel secured_closed hu h hsec) (imports_rel secured_closed hu h' hsec')
    i.snapshots i'.snapshots hk hsame.1 hsame.2

/-! ## C35 -/

/-- **C35**, tries: two tries with the same root have the same entries, or Keccak-256 collides on two of the byte strings
that were hashed for these two roots. -/
theorem C35_root (C : Crypto) (secured : Bool) (l l' : List (Bytes × Bytes)) (r : Word) (hn : (l.map Prod.fst).Nodup)
    (hn' : (l'.map Prod.fst).Nodup) (hf : EntriesFit l) (hf' : EntriesFit l') (h : trieRoot C secured l = .ok r)
    (h' : trieRoot C secured l' = .ok r) :
    (∀ k v, (k, v) ∈ l ↔ (k, v) ∈ l') ∨
    ∃ x y, x ∈ hashedByRoot C secured l ++ hashedByRoot C secured l' ∧ y ∈ hashedByRoot C secured l ++ hashedByRoot C secured l' ∧
      x ≠ y ∧ C.keccak256 x = C.keccak256 y := by
  by_cases hc : NoCollision C (hashedByRoot C secured l ++ hashedByRoot C secured l')
  · refine .inl fun k v => ⟨fun hm => root_incl hn hn' hf hf' h h' hc _ hm, fun hm => root_incl hn' hn hf' hf h' h ?_ _ hm⟩
    exact NoCollision.mono hc fun x hx => by simpa [or_comm] using hx
  · refine .inr (Classical.byContradiction fun hx => hc fun x hx1 y hy1 he => Classical.byContradiction fun hne => ?_)
    exact hx ⟨x, y, hx1, hy1, hne, he⟩

/-- **C35**, the tries of transactions, receipts and withdrawals: with the same root, every key reads the same encoded
value, unless there is a collision. -/
theorem C35_index {V : Type} (C : Crypto) (enc : V → Bytes) (t t' : Trie Bytes (Option V)) (r : Word)
    (hu : t.secured = false) (hu' : t'.secured = false) (hd : t.default = none) (hd' : t'.default = none)
    (hf : ∀ k v, trieGet t k = some v → k.length < 2 ^ 60 ∧ (enc v).length < 2 ^ 62)
    (hf' : ∀ k v, trieGet t' k = some v → k.length < 2 ^ 60 ∧ (enc v).length < 2 ^ 62)
    (h : indexTrieRoot C enc t = .ok r) (h' : indexTrieRoot C enc t' = .ok r)
    (hc : NoCollision C (hashedByRoot C false (t.data.entries.map fun e => (e.1, match e.2 with | none => [] | some v => enc v)) ++
      hashedByRoot C false (t'.data.entries.map fun e => (e.1, match e.2 with | none => [] | some v => enc v)))) (k : Bytes) :
    (trieGet t k).map enc = (trieGet t' k).map enc := by
  have key : ∀ {t t' : Trie Bytes (Option V)}, t.secured = false → t'.secured = false → t.default = none → t'.default = none →
      (∀ k v, trieGet t k = some v → k.length < 2 ^ 60 ∧ (enc v).length < 2 ^ 62) →
      (∀ k v, trieGet t' k = some v → k.length < 2 ^ 60 ∧ (enc v).length < 2 ^ 62) →
      indexTrieRoot C enc t = .ok r → indexTrieRoot C enc t' = .ok r →
      NoCollision C (hashedByRoot C false (t.data.entries.map fun e => (e.1, match e.2 with | none => [] | some v => enc v)) ++
        hashedByRoot C false (t'.data.entries.map fun e => (e.1, match e.2 with | none => [] | some v => enc v))) →
      ∀ v, trieGet t k = some v → (trieGet t' k).map enc = some (enc v) := by
    intro t t' hu hu' hd hd' hf hf' h h' hc v hv
    unfold indexTrieRoot at h h'
    rw [hu] at h; rw [hu'] at h'
    have hnd : ∀ t : Trie Bytes (Option V), ((t.data.entries.map fun e => (e.1, match e.2 with | none => [] | some v => enc v)).map Prod.fst).Nodup := by
      intro t; rw [List.map_map]; exact t.data.nodup
    have hstored : ∀ {t : Trie Bytes (Option V)}, trieRoot C false (t.data.entries.map fun e => (e.1, match e.2 with | none => [] | some v => enc v)) = .ok r →
        ∀ e ∈ t.data.entries, ∃ v, e.2 = some v := by
      intro t h e he
      obtain ⟨obj, hp, -⟩ := trieRoot_ok_iff h
      have := ((prepareTrie_ok (trieKeys_nodup (hnd t) (by intro x hx; simp at hx))).mp hp).1 _ (List.mem_map.mpr ⟨e, he, rfl⟩)
      match hq : e.2 with
      | none => rw [hq] at this; exact absurd rfl this
      | some v => exact ⟨v, rfl⟩
    have hget : ∀ {t : Trie Bytes (Option V)}, t.default = none → ∀ {k : Bytes} {v : V}, trieGet t k = some v ↔ (k, some v) ∈ t.data.entries := by
      intro t hd k v
      rw [Dict.mem_iff]
      unfold trieGet
      rw [hd]
      match t.data.get? k with
      | none => simp
      | some x => simp
    have hfit : ∀ {t : Trie Bytes (Option V)}, t.default = none → (∀ k v, trieGet t k = some v → k.length < 2 ^ 60 ∧ (enc v).length < 2 ^ 62) →
        trieRoot C false (t.data.entries.map fun e => (e.1, match e.2 with | none => [] | some v => enc v)) = .ok r →
        EntriesFit (t.data.entries.map fun e => (e.1, match e.2 with | none => [] | some v => enc v)) := by
      intro t hd hf h e he
      obtain ⟨⟨k, o⟩, hm, rfl⟩ := List.mem_map.mp he
      obtain ⟨v, hv⟩ := hstored h _ hm
      dsimp only at hv
      subst hv
      exact hf k v ((hget hd).mpr hm)
    have hm := root_incl (hnd t) (hnd t') (hfit hd hf h) (hfit hd' hf' h') h h' hc (k, enc v)
      (List.mem_map.mpr ⟨(k, some v), (hget hd).mp hv, rfl⟩)
    obtain ⟨⟨k', o⟩, hm', he⟩ := List.mem_map.mp hm
    obtain ⟨v', hv'⟩ := hstored h' _ hm'
    dsimp only at hv'
    subst hv'
    obtain ⟨e1, e2⟩ := Prod.mk.inj he
    dsimp only at e1 e2
    subst e1
    rw [(hget hd').mpr hm', Option.map_some, e2]
  match e : trieGet t k with
  | some v => rw [key hu hu' hd hd' hf hf' h h' hc v e]; rfl
  | none =>
    match e' : trieGet t' k with
    | none => rfl
    | some v =>
      have := key hu' hu hd' hd hf' hf h' h (NoCollision.mono hc fun x hx => by simpa [or_comm] using hx) v e'
      rw [e] at this; cases this

/-- **C35**, the state: two states with the same state root have the same accounts and the same storage, unless there is a
collision among the byte strings hashed for the two roots. The assumption on the hash of the empty trie says that the
constant `emptyTrieRoot` is right. -/
theorem C35_state (C : Crypto) (s s' : State) (r : Word) (hi : Quiet s) (hi' : Quiet s') (hsec : Secured s) (hsec' : Secured s')
    (ho : NoOrphans s) (ho' : NoOrphans s') (hn : NoncesFit s) (hn' : NoncesFit s')
    (hE : C.keccak256 [0x80] = emptyTrieRoot) (hc : NoCollision C (hashedByStateRoot C s ++ hashedByStateRoot C s'))
    (h : stateRoot C s = .ok r) (h' : stateRoot C s' = .ok r) : SameState s s' := by
  have hc' : NoCollision C (hashedByStateRoot C s' ++ hashedByStateRoot C s) :=
    NoCollision.mono hc fun x hx => by simpa [or_comm] using hx
  have f1 := fun a acc => account_incl (a := a) (acc := acc) hi.wf hi'.wf hsec hsec' hn hn' hc hi.snapshots hi'.snapshots h h'
  have f2 := fun a acc => account_incl (a := a) (acc := acc) hi'.wf hi.wf hsec' hsec hn' hn hc' hi'.snapshots hi.snapshots h' h
  have hacc : ∀ a, getAccountOptional s a = getAccountOptional s' a := by
    intro a
    match e : getAccountOptional s a with
    | some acc => exact (f1 a acc e).1.symm
    | none =>
      match e' : getAccountOptional s' a with
      | none => rfl
      | some acc => have := (f2 a acc e').1; rw [e] at this; cases this
  refine ⟨hacc, fun a k => ?_⟩
  match e : getAccountOptional s a with
  | none => rw [ho a k e, ho' a k (by rw [← hacc a]; exact e)]
  | some acc =>
    have hr := (f1 a acc e).2
    by_cases hz : getStorage s a k = 0
    · by_cases hz' : getStorage s' a k = 0
      · rw [hz, hz']
      · exact storage_incl hi'.wf hi.wf hsec' hsec hE hc' hr.symm k hz'
    · exact (storage_incl hi.wf hi'.wf hsec hsec' hE hc hr k hz).symm

/-- **C35**, blocks: if two imported blocks, on whatever chains, carry the same state root, the two chains have the same
accounts and storage afterwards, unless there is a collision. -/
theorem C35_block (C : Crypto) (c c' d d' : BlockChain) (b b' : Block) (hi : Idle c.state) (hi' : Idle c'.state)
    (hsec : Secured c.state) (hsec' : Secured c'.state) (ho : NoOrphans c.state) (ho' : NoOrphans c'.state)
    (h : stateTransition C c b = .ok d) (h' : stateTransition C c' b' = .ok d') (hroot : b.header.stateRoot = b'.header.stateRoot)
    (hn : NonceBound c.state) (hn' : NonceBound c'.state) (hE : C.keccak256 [0x80] = emptyTrieRoot)
    (hc : NoCollision C (hashedByStateRoot C d.state ++ hashedByStateRoot C d'.state)) : SameState d.state d'.state := by
  have key : ∀ {c d : BlockChain} {b : Block}, Idle c.state → Secured c.state → NoOrphans c.state → stateTransition C c b = .ok d →
      Idle d.state ∧ Secured d.state ∧ NoOrphans d.state ∧ stateRoot C d.state = .ok b.header.stateRoot := by
    intro c d b hi hsec ho h
    obtain ⟨-, -, -, -, bs, k, hb, hs, hk, -, -, hroot, -⟩ := stateTransition_ok h
    refine ⟨?_, import_rel secured_closed h hsec, (import_rel tidy_closed h ⟨hi.wf.main, hi.wf.storage, ho⟩).owned, ?_⟩
    · rw [hs]; exact (body_history hb).idle hi
    · unfold commitments at hk
      rw [except_bind_ok] at hk
      obtain ⟨x, hx, hk⟩ := hk
      rw [except_bind_ok] at hk
      obtain ⟨_, -, hk⟩ := hk
      rw [except_bind_ok] at hk
      obtain ⟨_, -, hk⟩ := hk
      rw [except_bind_ok] at hk
      obtain ⟨_, -, hk⟩ := hk
      cases hk
      rw [hs, hx, ← hroot]
  obtain ⟨i, s, o, r⟩ := key hi hsec ho h
  obtain ⟨i', s', o', r'⟩ := key hi' hsec' ho' h'
  rw [← hroot] at r'
  exact C35_state C _ _ _ i.quiet i'.quiet s s' o o' (import_rel nonceBound_history.toBlockClosed h hn).fit
    (import_rel nonceBound_history.toBlockClosed h' hn').fit hE hc r r'

end Verif.Props
