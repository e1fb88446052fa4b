import Verif.Model.Inlet
import Verif.Model.H1Upgrade
import Verif.Model.ReadBuf

/-!
# The transport of an upgraded HTTP/1 connection

`UpgradeableConnection::poll` (src/server/conn/http1.rs 553-562, src/client/conn/http1.rs 652-660) takes the transport and the read buffer out of
the connection (`Conn::into_inner`, conn.rs 200-204; `Buffered::into_inner`, src/proto/h1/io.rs 263-265) and gives both to `Upgraded::new`
(src/upgrade.rs 133-147), which reads from a `Rewind` over them.
-/

namespace Hyper

/-- A transport's answers as `Rewind` sees them. -/
def Seg.inner : Seg → InnerRead
  | .pending => .pending
  | .data b bs => .data (b :: bs)

/-- The reader of the upgraded connection.  How the transport ends is left out: only the bytes matter here. -/
def Fed.handOver {α : Type} (f : Fed α) : Rewind := Rewind.newBuffered (f.inlet.rd.net.map Seg.inner) f.inlet.rd.buf

end Hyper
