import Verif.Proofs.Io

/-! # A connection for the concrete cases beside the theorems -/

namespace Verif

/-- a connection for examples. -/
def exConn (rx : Bytes) : Conn :=
  { rx := rxOf rx, tx := [], wfaults := [], seqId := 1, pendingResult := false,
    data := { id := 1, isMariadb := false, version := (8, 0, 0), capabilities := 0x0100_8200,
              nonce := [], serverKey := none, authPlugin := .native, authSwitched := false,
              maxAllowedPacket := 4194304 },
    options := { user := [], password := [], dbName := none, maxAllowedPacket := none,
                 allowCleartext := false, authPlugin := none, serverKey := none, secure := false } }

end Verif
