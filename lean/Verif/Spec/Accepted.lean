import Verif.Spec.Response
import Verif.Spec.Handshake
import Verif.Model.Auth

/-!
# Spec: the forms of the packets of a server that the client accepts

The layouts of the protocol, with the places where the client is more liberal than it: numbers need not be in their
shortest form, fillers and some first bytes are not looked at, and something may follow.
-/

namespace Verif

/-- five bytes of text: what `state_str` may be called on. -/
def Spec.StateText (s : Bytes) : Prop := s.length = 5 ∧ ∃ t : Str, utf8 t = s

/-- an `int<lenenc>` as the client takes it: any of the forms of the protocol, shortest or not; the markers 0xFB
and 0xFF, no integers in the protocol, are taken for zero. -/
def Spec.IntForm (n : Nat) (b : Bytes) : Prop :=
  (n ≤ 250 ∧ b = [UInt8.ofNat n]) ∨ (n < 2 ^ 16 ∧ b = 0xFC :: Spec.le 2 n) ∨
  (n < 2 ^ 24 ∧ b = 0xFD :: Spec.le 3 n) ∨ (n < 2 ^ 64 ∧ b = 0xFE :: Spec.le 8 n) ∨
  (n = 0 ∧ (b = [0xFB] ∨ b = [0xFF]))

/-- a string with its length in one byte. -/
def Spec.str8 (s : Str) : Bytes := UInt8.ofNat (utf8 s).length :: utf8 s

/-- which SQL state a packet has to carry. -/
def Spec.stateFor (protocol41 : Bool) (state : Option Bytes) : Prop :=
  if protocol41 then ∃ s, state = some s ∧ Spec.StateText s else state = none

/-- the rest of a progress report: number of strings, stage, stages, progress, text. -/
def Spec.progressTail (n stage maxStage : UInt8) (progress : UInt32) (l info : Bytes) : Bytes :=
  [n, stage, maxStage] ++ Spec.le 3 progress.toNat ++ (l ++ info)

/-- the fixed part of a column definition. -/
def Spec.columnTail (d : ColumnDef) (f1 f2 : UInt8) : Bytes :=
  [12] ++ Spec.le 2 d.charset.toNat ++ Spec.le 4 d.length.toNat ++ [d.type.toByte] ++ Spec.le 2 d.flags.toNat ++
    [d.decimals, f1, f2]

/-- the text `m`, not empty, is at the front of `rest`. -/
def Spec.HasText (rest : Bytes) (m : Str) : Prop :=
  m ≠ [] ∧ ∃ l tail, (utf8 m).length < 2 ^ 64 ∧ Spec.IntForm (utf8 m).length l ∧ rest = l ++ utf8 m ++ tail

/-- without one zero byte at the end, if there is one. -/
def Spec.Stripped (t d : Bytes) : Prop := t = d ++ [0] ∨ (t = d ∧ d.getLast? ≠ some 0)

/-- how many bytes the second part of the challenge has, by the announced length. -/
def Spec.SecondPart (secure : Bool) (dataLen : UInt8) (n2 : Bytes) : Prop :=
  if secure then
    (dataLen.toNat < 128 ∧ n2.length = max 13 (dataLen.toNat - 8)) ∨ (136 ≤ dataLen.toNat ∧ n2.length = 13)
  else n2 = []

/-- the plugin at the end of a greeting. -/
def Spec.PluginAtEnd (present : Bool) (p : Option AuthPlugin) (t : Bytes) : Prop :=
  if present then ∃ q, p = some q ∧ Spec.Stripped t (Spec.pluginName q) else p = none

/-- the greeting of a server as the client takes it. -/
structure Spec.GreetingForm (h : Handshake) (bs : Bytes) (p1 p2 rest : Bytes) : Prop where
  version : (0 : UInt8) ∉ utf8 h.serverVersion
  part1 : p1.length = 8
  /-- the status bit 0x0004 is not known to the client -/
  status : h.status.toNat.testBit 2 = false
  part2 : Spec.SecondPart (h.capabilities.toNat.testBit Spec.bitSecure) h.authPluginDataLen p2
  /-- twenty bytes, filled with zeros if the server sent fewer -/
  nonce : h.nonce = (p1 ++ p2 ++ List.replicate 12 0).take 20
  plugin : Spec.PluginAtEnd (h.capabilities.toNat.testBit Spec.bitPluginAuth) h.authPlugin rest
  bytes : ∃ f fill, fill.length = 10 ∧
    bs = [h.protocolVersion] ++ utf8 h.serverVersion ++ [0] ++ Spec.le 4 h.connectionId.toNat ++ p1 ++ [f] ++
      Spec.le 2 (h.capabilities.toNat % 65536) ++ [h.collation] ++ Spec.le 2 h.status.toNat ++
      Spec.le 2 (h.capabilities.toNat / 65536) ++ [h.authPluginDataLen] ++ fill ++ p2 ++ rest

end Verif
