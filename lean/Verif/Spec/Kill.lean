import Verif.Spec.Sink
namespace Verif
variable {F : Type} [F64 F] {σ : Type}

/-- What a sink's thread has not yet dealt with: the event it holds (because its valve is closed, it has just taken it, or it is the `Shutdown` it returned at) and
what is in its queue — src/sink/mod.rs:147-217. -/
def SinkRun.waiting (r : SinkRun F σ) : List (Event F) := r.current.toList ++ arrivals r.queue

end Verif
