import Verif.Model.Statsd
import Verif.Model.Proto
/-!
# Datagrams as bytes

What `Statsd::handle_datagrams` makes of the bytes of a datagram.
-/
namespace Verif.Statsd

/-- The buffer of the source — src/source/statsd.rs:175. -/
def bufferSize : Nat := 16250

/-- `recv_from` (external: what does not fit into the buffer is dropped) and `str::from_utf8` — src/source/statsd.rs:99-101. -/
def receive (bs : Bytes) (now : Int) : Datagram := ⟨Proto.unUtf8 (bs.take bufferSize), now⟩

end Verif.Statsd
