import Verif.Proofs.ProgramSolve
import Verif.Spec.ProgramView

/-!
# The world of the solver of a world
-/

namespace Nrf.Program
open Spec

section
variable {F : Type} [Scalar F] {n : Nat} {EI EU S : Type} (P : Setup F n EI EU S)

theorem worldOf_solverOf (w : World F n S) : worldOf P w.log w.files w.ops (solverOf w) w.model [] = w := by
  have h : textOf P ((solverOf w).log.getD []) ++ [] = [] := by
    simp only [solverOf, List.append_nil]
    cases w.log <;> rfl
  unfold worldOf
  rw [h, filesWith_nil]
  rfl

theorem solverOf_log (w : World F n S) : w.log.isSome = (solverOf w).log.isSome := by
  simp [solverOf]

theorem activateDebug_calm (hcalm : P.env = .calm) (path : String) (w : World F n S) :
    activateDebug P path w = .ok () (worldOf P (some path) (setFile w.files path []) (w.ops + 2)
      (solverOf w).activateDebug w.model []) := by
  have hio : ∀ k, P.env.io k = none := fun k => by rw [hcalm]; rfl
  have hf : setFile (setFile w.files path []) path
      ([] ++ LogEntry.text P.num P.mat P.c P.fd P.its (.header : LogEntry F n)) =
      filesWith (some path) (setFile w.files path []) (textOf P [.header] ++ []) := by
    funext q
    unfold filesWith setFile textOf logText
    by_cases h : q = path
    · subst h
      simp
    · rw [if_neg h, if_neg h, if_neg (by simpa using fun h' => h h'.symm)]
  unfold activateDebug newLog addContent
  simp only [bind, EStateM.bind, modify, modifyGet, MonadStateOf.modifyGet, EStateM.modifyGet, get, getThe,
    MonadStateOf.get, EStateM.get, hio, set, MonadStateOf.set, EStateM.set, setFile, if_true]
  exact congrArg _ (by
    unfold worldOf
    rw [show (solverOf w).activateDebug.log.getD [] = [.header] from rfl, ← hf]
    rfl)

end
end Nrf.Program
