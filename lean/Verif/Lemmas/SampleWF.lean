import Verif.Spec.Sample
import Verif.Lemmas.State
/-! The sample worlds are well formed. -/
namespace Verif.Sample

theorem worldOf_wf (accounts : List (Address × Account)) (slots : List (Address × Word × Word)) :
    (worldOf accounts slots).WF := by
  refine ⟨?_, TransientStorage.empty_wf⟩
  have h1 : ∀ (l : List (Address × Account)) (s : State), s.WF →
      (l.foldl (fun s x => setAccount s x.1 (some x.2)) s).WF := by
    intro l
    induction l with
    | nil => intro s h; exact h
    | cons x r ih => intro s h; exact ih _ (h.setAccount _ _)
  have h2 : ∀ (l : List (Address × Word × Word)) (s : State), s.WF →
      (l.foldl (fun s x => { s with storageTries := triesSet s.storageTries x.1 x.2.1 x.2.2 }) s).WF := by
    intro l
    induction l with
    | nil => intro s h; exact h
    | cons x r ih => intro s h; exact ih _ ⟨h.main, h.storage.set _ _ _, h.snaps⟩
  exact h2 _ _ (h1 _ _ State.empty_wf)

end Verif.Sample
