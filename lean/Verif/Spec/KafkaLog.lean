import Verif.Spec.Kafka
/-!
# What a broker has written (for C143)
-/
namespace Verif.Kafka

/-- Of what is submitted, in order, the messages whose answer is of this kind; the answers are those of the script, one per submission, and
after its end everything is published. -/
def answered (kind : KOutcome → Bool) : List (Submission → KOutcome) → List Submission → List Submission
  | _, [] => []
  | script, s :: ss =>
    if kind ((script.head?.getD fun _ => .published) s) then s :: answered kind script.tail ss else answered kind script.tail ss

/-- The log of a broker that writes what it says it has published and nothing else. -/
def written : List (Submission → KOutcome) → List Submission → List Submission := answered (· = .published)

/-- The messages the broker has refused for good. -/
def refused : List (Submission → KOutcome) → List Submission → List Submission := answered fun o => o = .fatal ∨ o = .canceled

end Verif.Kafka
