import Verif.Model.SinkImpls
import Verif.Model.Scrape
namespace Verif
variable {F : Type} [F64 F]

/-- `Sink for Prometheus` — src/sink/prometheus.rs:630-675; lines and raw events are ignored and the valve is the default one (src/sink/mod.rs:227-252).  `none` is a panic, `clock` gives the time of
each call.  Simplifications: the lock is taken and released within a call, and shutting down the HTTP server at the end is left out; both are in Model/Scrape.lean. -/
def prometheusImpl (p : Scrape.Setup F) (clock : Nat → Int) : SinkImpl F (Option (Hosted (Prometheus.Aggr F) Unit)) :=
  let flush := fun s => s.map fun h => { h with state := (h.state.purge (clock h.calls)).1, calls := h.calls + 1 }
  { valveOpen := fun s => s.isSome
    flushInterval := fun _ => some 10
    deliver := fun s t => s.bind fun h => (Prometheus.deliver p.ext p.ageThreshold (clock h.calls) h.state t).map fun a =>
      { h with state := a, calls := h.calls + 1 }
    deliverLine := fun s _ => s
    deliverRaw := fun s _ => s
    flush := flush
    shutdown := flush }

end Verif
