import Verif.Model.Cipher
/-
Model of the encrypted transport, nora_ssh/src/host.rs:303-373. The only implementation of `Cipher`
is `ChaCha20Poly1305`. Ciphers and buffers are passed in and the new ones returned.
-/
namespace Nora

/-- `OutError`, host.rs:331-334 -/
inductive OutError where
  | write
  deriving DecidableEq, Repr

/-- `Out::send`, host.rs:305-329. Logs the payload once the packet is encrypted. Returns the cipher and
the new content of `buf`; on an error the connection is given up by every caller, so they are not
returned then. -/
def Out.send (K : Crypto) (c : ChaCha) (buf : Bytes)
    (fill : Bytes → R OutError (Nat × Bytes)) : M OutError (ChaCha × Bytes) := do
  let pkt ← M.withRng (Packet.wrap buf c.blockSize false fill)
  let payload ← M.lift pkt.payload -- only for the log
  let raw ← M.lift (pkt.intoRaw tagSize)
  let (enc, c) ← M.lift (c.encrypt K raw)
  M.logEvent (.sent payload)
  (M.writeAll enc).mapErr (fun _ => .write)
  pure (c, enc ++ pkt.data.drop raw.length)

/-- `InError`, host.rs:367-373 -/
inductive InError where
  | packet (e : WrapRawError) | bufferTooSmall (n : Nat) | read | cipher
  deriving DecidableEq, Repr

/-- `In::recv`, host.rs:338-365. Returns the payload, the cipher and the new content of `buf`; also on
an error the cipher and the buffer are returned (after a failed read the buffer is returned as it was
before that read). -/
def In.recv (K : Crypto) (c : ChaCha) (buf : Bytes) :
    M (InError × ChaCha × Bytes) (Bytes × ChaCha × Bytes) := do
  let (_, data) ← M.lift (splitAtP buf 4)
  let l ← (M.readExact 4).mapErr (fun _ => (.read, c, buf))
  let (lenb, c) := c.decryptLength K l
  let v ← M.lift (u32FromBe lenb)
  let len := v.toNat
  if data.length < len + tagSize then M.fail (.bufferTooSmall len, c, l ++ data)
  else do
    let d ← (M.readExact (len + tagSize)).mapErr (fun _ => (.read, c, l ++ data))
    let buf := l ++ d ++ data.drop (len + tagSize)
    let pkt ← M.lift (idxTo buf (4 + len + tagSize))
    let (pkt, c) ← M.lift ((c.decryptData K pkt).mapErr (fun c => (.cipher, c, buf)))
    let buf := lenb ++ pkt.drop 4 ++ buf.drop (4 + len + tagSize)
    let p ← M.lift ((Packet.wrapRaw buf false c.blockSize).mapErr (fun e => (.packet e, c, buf)))
    let payload ← M.lift p.payload
    M.logEvent (.received payload)
    pure (payload, c, buf)

end Nora
