import Verif.Props.Misc
import Verif.Props.Threads
import Verif.Props.Sharing
import Verif.Props.Deadlocks
import Verif.Props.Blocking
import Verif.Props.Alone
import Verif.Props.Selfless
import Verif.Props.Linear
import Verif.Props.Damage
import Verif.Props.Keeping
import Verif.Props.Phases
import Verif.Props.Sound
import Verif.Props.Races
import Verif.Props.Returns
import Verif.Props.Conserve
import Verif.Props.Ids
import Verif.Props.KeepingPhases
import Verif.Props.Ordered
import Verif.Props.Order
import Verif.Props.Enumeration
import Verif.Props.Seats
import Verif.Props.Considerate
import Verif.Props.KeepingConsiderate
import Verif.Findings.Sequential
import Verif.Tests.Upstream
import Verif.Spec.Asks
import Verif.Proofs.Clear
import Verif.Props.Reentry
import Verif.Model.Fine
import Verif.Spec.Fine
import Verif.Proofs.Fine
import Verif.Proofs.FineCode
import Verif.Proofs.FineBack
import Verif.Props.Fine
import Verif.Model.FineKeeping
import Verif.Spec.FineKeeping
import Verif.Proofs.FineKeeping
import Verif.Props.FineKeeping
import Verif.Spec.Immune
import Verif.Spec.Isolation
import Verif.Proofs.Immune
import Verif.Proofs.Isolation
import Verif.Proofs.NoBatches
import Verif.Props.Immune
import Verif.Props.Isolation
import Verif.Spec.Reorder
import Verif.Proofs.Reorder
import Verif.Props.Reorder
import Verif.Proofs.Overlap
import Verif.Proofs.OverlapGroups
import Verif.Props.Overlap
import Verif.Spec.Space
import Verif.Proofs.Space
import Verif.Props.Space
import Verif.Props.Transparent
import Verif.Spec.Reached
import Verif.Spec.Bounded
import Verif.Proofs.Reached
import Verif.Props.Recover
import Verif.Proofs.Bounded
import Verif.Props.Bounded
import Verif.Spec.Divided
import Verif.Proofs.Divided
import Verif.Props.Divided
import Verif.Proofs.Standstill
import Verif.Props.Standstill
import Verif.Props.Again
import Verif.Props.Agree
import Verif.Props.Listed
