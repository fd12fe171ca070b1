import Verif.Model.Io
/-
Model of nora_ssh/src/packet.rs: reading an unencrypted packet.
-/
namespace Nora

/-- `PacketParseError`, nora_ssh/src/packet.rs:27-33 -/
inductive PacketParseError where
  | tooLarge (n : Nat) | tooSmall (n : Nat) | io | wrapRaw (e : WrapRawError)
  deriving DecidableEq, Repr

/-- `parse`, nora_ssh/src/packet.rs:4-25. `buf` is the old content of the buffer, the packet returned
holds the new content. -/
def PacketIo.parse (buf : Bytes) (padWithPacketLen : Bool) (bs : BlockSize) :
    M PacketParseError Packet := do
  -- `&mut buf[..4]`
  let _ ← M.lift (idxTo buf 4)
  let h ← (M.readExact 4).mapErr (fun _ => .io)
  let buf := h ++ buf.drop 4
  let v ← M.lift (u32FromBe h)
  let len := v.toNat
  if len > buf.length then M.fail (.tooLarge len)
  else if len < 8 then M.fail (.tooSmall len)
  else do
    -- `&mut buf[4..][..len]`
    let rest ← M.lift (idxFrom buf 4)
    let _ ← M.lift (idxTo rest len)
    let d ← (M.readExact len).mapErr (fun _ => .io)
    let buf := buf.take 4 ++ d ++ rest.drop len
    M.lift ((Packet.wrapRaw buf padWithPacketLen bs).mapErr .wrapRaw)

end Nora
