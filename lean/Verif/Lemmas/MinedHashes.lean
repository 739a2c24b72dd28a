import Verif.Props.C58
import Verif.Lemmas.Header
import Verif.Spec.PowHistory
/-! Mined histories: the chain keeps the last 255 blocks, they are linked, and the hashes given to the EVM are theirs. -/
namespace Verif
open Spec Verif.Pow Ethash

theorem numbered_prefix {T : Type} {l m : List (PowBlock T)} (h : Numbered (l ++ m)) : Numbered l := by
  obtain ⟨k, hk⟩ := h
  refine ⟨k, fun i b hb => hk i b ?_⟩
  rw [List.getElem?_append_left (List.getElem?_eq_some_iff.mp hb).1]; exact hb

theorem powFork_blocks {F : PowFork} {c c' : PowChain Txs} (h : applyPowFork F c = .ok c') : c'.blocks = c.blocks := by
  unfold applyPowFork at h
  split at h
  · split at h <;> cases h
    rfl
  · cases h; rfl

theorem mined_blocks {C : Crypto} {K : Hashes} {c c' : PowChain Txs} {bs : List (PowFork × PowBlock Txs)} (h : Mined C K c bs c') :
    ∀ (full : List (PowBlock Txs)), c.blocks = lastN 255 full → PowLinked K full → Numbered (full ++ bs.map Prod.snd) →
      PowLinked K (full ++ bs.map Prod.snd) ∧ c'.blocks = lastN 255 (full ++ bs.map Prod.snd) := by
  induction h with
  | nil c => intro full hb hl _; simp only [List.map_nil, List.append_nil]; exact ⟨hl, hb⟩
  | fork F hf h t ih =>
    intro full hb hl hn
    exact ih full (by rw [powFork_blocks h]; exact hb) hl hn
  | block hf h t ih =>
    rename_i c mid c' F b bs
    intro full hb hl hn
    obtain ⟨hv, -, s, r, -, -, -, -, -, -, -, e, -⟩ := powTransition_ok h
    have hn1 : Numbered (full ++ [b]) := by
      rw [List.map_cons, ← List.singleton_append, ← List.append_assoc] at hn
      exact numbered_prefix hn
    have hnc : Numbered c.blocks := by rw [hb]; exact numbered_drop hl.1 _
    obtain ⟨p, hp, rules⟩ := (validateHeader_iff K F c.blocks hnc b.header).mp hv
    have hpf : p ∈ full := by rw [hb] at hp; exact List.mem_of_mem_drop hp
    have hlink : PowLinked K (full ++ [b]) := by
      refine ⟨hn1, fun i x y hx hy => ?_⟩
      by_cases hi : i + 1 < full.length
      · rw [List.getElem?_append_left (by omega)] at hx hy
        exact hl.2 i x y hx hy
      · have hi' : i + 1 = full.length := by
          have := (List.getElem?_eq_some_iff.mp hy).1
          rw [List.length_append, List.length_singleton] at this
          omega
        obtain ⟨k, hk⟩ := hn1
        have n1 := hk i x hx
        have n2 := hk (i + 1) y hy
        rw [List.getElem?_append_right (by omega), hi', Nat.sub_self] at hy
        have ey : b = y := Option.some.inj hy
        subst ey
        rw [List.getElem?_append_left (by omega)] at hx
        have hpx : p = x := numbered_unique hl.1 hpf (List.mem_of_getElem? hx) (by have := rules.number; omega)
        rw [← hpx]; exact rules.parentHash
    have := ih (full ++ [b]) (by rw [e, hb]; exact lastN_append_lastN 255 full [b]) hlink (by simpa using hn)
    simpa using this

/-- The hash list holds, `back` places from its end, the hash of the block `back` places from the end of the history. -/
theorem lastBlockHashes_getElem {K : Hashes} {blocks full : List (PowBlock Txs)} (hl : PowLinked K full) (hb : blocks = lastN 255 full)
    (back : Nat) (h1 : 1 ≤ back) (h2 : back ≤ 256) (a : PowBlock Txs) (ha : full[full.length - back]? = some a) (h3 : back ≤ full.length) :
    back ≤ (lastBlockHashes K blocks).length ∧
      (lastBlockHashes K blocks)[(lastBlockHashes K blocks).length - back]? = some (powHash K a.header) := by
  have hlen := lastN_length 255 full
  obtain ⟨last, hlast⟩ : ∃ last, full[full.length - 1]? = some last := ⟨_, List.getElem?_eq_getElem (by omega)⟩
  have hgl : (lastN 255 full).getLast? = some last := by
    rw [List.getLast?_eq_getElem?, lastN_getElem?, hlen, ← hlast]
    exact congrArg (fun j => full[j]?) (by omega)
  have e : lastBlockHashes K blocks = (lastN 255 full).map (fun b => b.header.parentHash) ++ [powHash K last.header] := by
    unfold lastBlockHashes
    rw [hb, lastN_idem]
    dsimp only
    rw [hgl]
  rw [e, List.length_append, List.length_map, List.length_singleton, hlen]
  refine ⟨by omega, ?_⟩
  by_cases hb1 : back = 1
  · subst hb1
    rw [hlast] at ha
    cases ha
    rw [List.getElem?_append_right (by rw [List.length_map, hlen]; omega), List.length_map, hlen,
      show min 255 full.length + 1 - 1 - min 255 full.length = 0 by omega]
    rfl
  · obtain ⟨y, hy⟩ : ∃ y, full[full.length - back + 1]? = some y := ⟨_, List.getElem?_eq_getElem (by omega)⟩
    rw [List.getElem?_append_left (by rw [List.length_map, hlen]; omega), List.getElem?_map, lastN_getElem?,
      show full.length - 255 + (min 255 full.length + 1 - back) = full.length - back + 1 by omega, hy]
    exact congrArg some (hl.2 _ a y ha hy)

end Verif
