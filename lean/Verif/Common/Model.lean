import Verif.Go.Heap
import Verif.Go.Loop
/-!
Model of package `common` (/repo/common): netlink header, nfgenmsg and attribute codecs.
`e` is the host byte order returned by `NativeEndian()` (helpers.go:307-313).
-/
namespace Verif.Common

/-- common/helpers.go:24-26 `NlMsgAlign`; `nlMsgAlignTo` = 4 (constants.go). -/
def nlMsgAlign (len : U32) : U32 := (len + 4 - 1) &&& ~~~(4 - 1)

/-- common/helpers.go:29-31 `NfaAlign`; `nfaAlignTo` = 4. -/
def nfaAlign (len : U16) : U16 := (len + 4 - 1) &&& ~~~(4 - 1)

/-- common/helpers.go:34-36 `NfaAlign32`. -/
def nfaAlign32 (len : U32) : U32 := (len + 4 - 1) &&& ~~~(4 - 1)

/-- common/helpers.go:39-41 `NlMsgLength`; `syscall.SizeofNlMsghdr` = 16. -/
def nlMsgLength (len : U32) : U32 := len + nlMsgAlign 16

/-- common/helpers.go:44-46 `NlMsgSpace`. -/
def nlMsgSpace (len : U32) : U32 := nlMsgAlign (nlMsgLength len)

/-- common/helpers.go:49-51 `NfaLength`; `SizeofNfAttr` = 4 (constants.go). -/
def nfaLength (len : U16) : U16 := nfaAlign (len + 4)

/-- `syscall.NlMsghdr` -/
structure NlMsghdr where
  len : U32
  type : U16
  flags : U16
  seq : U32
  pid : U32
deriving DecidableEq, Repr

/-- common/helpers.go:14-16 `NlMsgType`. -/
def nlMsgType (h : NlMsghdr) : U16 := h.type &&& 0x00ff

/-- common/helpers.go:19-21 `NlMsgSubsysID`. -/
def nlMsgSubsysID (h : NlMsghdr) : U16 := (h.type &&& 0xff00) >>> 8

/-- common/types.go:101-105 `NfqGenMsg` -/
structure NfqGenMsg where
  family : Byte
  version : Byte
  resID : U16
deriving DecidableEq, Repr

/-- common/types.go:110-113 `NfAttr` -/
structure NfAttr where
  nfaLen : U16
  nfaType : U16
deriving DecidableEq, Repr

/-- common/helpers.go:57-65 `BuildNlMsgHeader`; `msgType` is a Go `int`, converted with
`uint16(msgType)`. -/
def buildNlMsgHeader (msgType : U64) (msgFlags : U32) (len : U32) : NlMsghdr :=
  { len := nlMsgLength len
    type := msgType.setWidth 16
    flags := msgFlags.setWidth 16
    pid := 0
    seq := 0 }

/-- common/helpers.go:72-79 `BuildNfgenMsg`: returns the nfgenmsg and the header with its length
*set* (not increased) to 16+4.  `family` is a Go `int`. -/
def buildNfgenMsg (family : U64) (version : Byte) (resID : U16) (n : NlMsghdr) :
    NfqGenMsg × NlMsghdr :=
  ({ family := family.setWidth 8, version := version, resID := resID },
   { n with len := nlMsgLength 4 })

/-- common/helpers.go:87-93 `BuildNfAttrMsg`: returns the attribute header and the updated message
header. -/
def buildNfAttrMsg (attrType : U16) (n : NlMsghdr) (dataLen : U32) : NfAttr × NlMsghdr :=
  let n' := { n with len := n.len + (nfaLength (dataLen.setWidth 16)).setWidth 32 }
  ({ nfaLen := nfaLength (dataLen.setWidth 16), nfaType := attrType }, n')

/-- common/helpers.go:120-125 `BuildNfNestedAttrMsg`; `dataLen` is a Go `int`. -/
def buildNfNestedAttrMsg (attrType : U16) (dataLen : U64) : NfAttr :=
  { nfaLen := nfaLength (dataLen.setWidth 16), nfaType := attrType }

/-- common/helpers.go:130-135 `BuildNfAttrWithPaddingMsg`. -/
def buildNfAttrWithPaddingMsg (attrType : U16) (dataLen : U64) : NfAttr :=
  { nfaLen := dataLen.setWidth 16, nfaType := attrType }

/-- common/helpers.go:107-115 `SerializeNlMsgHdrBuf`: the new contents of the buffer and the
count returned. `buf[0:4]` etc. are bounds-checked against the capacity by Go; buffers here have
capacity = length. -/
def serializeNlMsgHdrBuf (e : Endian) (hdr : NlMsghdr) (buf : List Byte) :
    Res (List Byte × Nat) := do
  let buf ← writeAt buf 0 (enc32 e hdr.len)
  let buf ← writeAt buf 4 (enc16 e hdr.type)
  let buf ← writeAt buf 6 (enc16 e hdr.flags)
  let buf ← writeAt buf 8 (enc32 e hdr.seq)
  let buf ← writeAt buf 12 (enc32 e hdr.pid)
  pure (buf, 16)

/-- common/helpers.go:96-104 `SerializeNlMsgHdr`. -/
def serializeNlMsgHdr (e : Endian) (hdr : NlMsghdr) : Res (List Byte) := do
  let buf := zeros 16
  let buf ← writeAt buf 0 (enc32 e hdr.len)
  let buf ← writeAt buf 4 (enc16 e hdr.type)
  let buf ← writeAt buf 6 (enc16 e hdr.flags)
  let buf ← writeAt buf 8 (enc32 e hdr.seq)
  let buf ← writeAt buf 12 (enc32 e hdr.pid)
  pure buf

/-- `copy(buf[i:], [x])`: no-op when nothing fits, panics when `i` is beyond the end. -/
def copyByte (buf : List Byte) (i : Nat) (x : Byte) : Res (List Byte) :=
  if i < buf.length then .ok (splice buf i [x])
  else if i = buf.length then .ok buf else .panic

/-- common/helpers.go:148-154 `(*NfqGenMsg).ToWireFormatBuf`. -/
def NfqGenMsg.toWireFormatBuf (r : NfqGenMsg) (buf : List Byte) : Res (List Byte × Nat) := do
  let buf ← copyByte buf 0 r.family
  let buf ← copyByte buf 1 r.version
  let buf ← writeAt buf 2 (enc16 .big r.resID)
  pure (buf, 4)

/-- common/helpers.go:138-145 `(*NfqGenMsg).ToWireFormat`. -/
def NfqGenMsg.toWireFormat (r : NfqGenMsg) : Res (List Byte) := do
  let buf := zeros 4
  let buf ← copyByte buf 0 r.family
  let buf ← copyByte buf 1 r.version
  let buf ← writeAt buf 2 (enc16 .big r.resID)
  pure buf

/-- common/helpers.go:173-177 `(*NfAttr).ToWireFormatBuf`. -/
def NfAttr.toWireFormatBuf (e : Endian) (r : NfAttr) (buf : List Byte) : Res (List Byte × Nat) := do
  let buf ← writeAt buf 0 (enc16 e r.nfaLen)
  let buf ← writeAt buf 2 (enc16 e r.nfaType)
  pure (buf, 4)

/-- common/helpers.go:163-170 `(*NfAttr).ToWireFormat`. -/
def NfAttr.toWireFormat (e : Endian) (r : NfAttr) : Res (List Byte) := do
  let buf := zeros 4
  let buf ← writeAt buf 0 (enc16 e r.nfaLen)
  let buf ← writeAt buf 2 (enc16 e r.nfaType)
  pure buf

/-- common/helpers.go:180-184 `(*NfValue8).ToWireFormat`; `SizeOfValue32` = 4. -/
def value8ToWireFormat (value : Byte) : Res (List Byte) := writeAt (zeros 4) 0 [value]

/-- common/helpers.go:187-190 `(*NfValue8).ToWireFormatBuf`; `Length()` (234-236) is 4. -/
def value8ToWireFormatBuf (value : Byte) (buf : List Byte) : Res (List Byte × Nat) := do
  let buf ← writeAt buf 0 [value]
  pure (buf, 4)

/-- common/helpers.go:193-197 `(*NfValue16).ToWireFormat`. -/
def value16ToWireFormat (value : U16) : Res (List Byte) := writeAt (zeros 4) 0 (enc16 .big value)

/-- common/helpers.go:200-203 `(*NfValue16).ToWireFormatBuf`; `Length()` (229-231) is 4. -/
def value16ToWireFormatBuf (value : U16) (buf : List Byte) : Res (List Byte × Nat) := do
  let buf ← writeAt buf 0 (enc16 .big value)
  pure (buf, 4)

/-- common/helpers.go:206-210 `(*NfValue32).ToWireFormat`. -/
def value32ToWireFormat (value : U32) : Res (List Byte) := writeAt (zeros 4) 0 (enc32 .big value)

/-- common/helpers.go:213-216 `(*NfValue32).ToWireFormatBuf`. -/
def value32ToWireFormatBuf (value : U32) (buf : List Byte) : Res (List Byte × Nat) := do
  let buf ← writeAt buf 0 (enc32 .big value)
  pure (buf, 4)

/-- common/helpers.go:239-251 `NetlinkMessageToStruct`: header (nil on error), rest, error. -/
def netlinkMessageToStruct (e : Endian) (buf : List Byte) :
    Res (Option NlMsghdr × List Byte × Option Err) :=
  if buf.length ≤ 15 then pure (none, [], some (.msg "Buffer is empty"))
  else do
    let len ← dec32 e buf
    let type ← dec16 e (← sliceFrom buf 4)
    let flags ← dec16 e (← sliceFrom buf 6)
    let seq ← dec32 e (← sliceFrom buf 8)
    let pid ← dec32 e (← sliceFrom buf 12)
    let rest ← sliceFrom buf 16
    pure (some { len, type, flags, seq, pid }, rest, none)

/-- common/helpers.go:254-260 `NetlinkMessageToNfGenStruct` (its error is always nil). -/
def netlinkMessageToNfGenStruct (buf : List Byte) : Res (NfqGenMsg × List Byte) := do
  let family ← idx buf 0
  let version ← idx buf 1
  let resID ← dec16 .big (← sliceFrom buf 2)
  let rest ← sliceFrom buf 4
  pure ({ family, version, resID }, rest)

/-- `map[int]*NfAttrResponsePayload`: which keys are present, and each one's `data`.
Every stored pointer is non-nil (the only constructor used is `SetNetlinkData`,
common/accessors.go:26-30). -/
abbrev AttrMap := Nat → Option Slice

/-- `hdr[k].data = s` -/
def AttrMap.setData (m : AttrMap) (k : Nat) (s : Slice) : AttrMap := fun k' => if k' = k then some s else m k'

/-- common/helpers.go:292-295: what is returned after the loop. -/
def attrFinish (buf : Slice) (i : Nat) (m : AttrMap) : Res (AttrMap × Option Slice × Option Err) :=
  if i ≥ buf.len then pure (m, none, none)
  else do
    let rest ← buf.from' i
    pure (m, some rest, none)

/-- common/helpers.go:266-290: one iteration of the loop of `NetlinkMessageToNfAttrStruct`.
State: the index `i` and the map.  `nfqaMax` = 11. -/
def attrBody (e : Endian) (h : Heap) (buf : Slice) (s : Nat × AttrMap) :
    Res (Step (Nat × AttrMap) (AttrMap × Option Slice × Option Err)) :=
  let i := s.1
  let m := s.2
  if i < buf.len then
    if i + 4 > buf.len then do
      let r ← attrFinish buf (i + 4) m
      pure (.done r)
    else do
      let nfaLen ← dec16 e (← sliceFrom (h.bytes buf) i)
      let nfaType ← dec16 e (← sliceFrom (h.bytes buf) (i + 2))
      let i := i + 4
      let nfaLen32 := nfaLen.toNat
      if i + nfaLen32 - 4 ≤ buf.len then
        if nfaType.toNat < 11 then
          match m nfaType.toNat with
          | none =>
            let i := i + nfaLen32 - 4
            let i := (nfaAlign32 (BitVec.ofNat 32 i)).toNat
            pure (.next (i, m))
          | some _ => do
            let d ← buf.sub i (i + nfaLen32 - 4)
            let m := m.setData nfaType.toNat d
            let i := i + nfaLen32 - 4
            let i := (nfaAlign32 (BitVec.ofNat 32 i)).toNat
            pure (.next (i, m))
        else
          let i := i + nfaLen32 - 4
          let i := (nfaAlign32 (BitVec.ofNat 32 i)).toNat
          pure (.next (i, m))
      else pure (.done (m, none, some (.msg "Bad Attr")))
  else do
    let r ← attrFinish buf i m
    pure (.done r)

/-- common/helpers.go:263-296 `NetlinkMessageToNfAttrStruct`: new map, rest, error. -/
noncomputable def netlinkMessageToNfAttrStruct (e : Endian) (h : Heap) (buf : Slice) (m : AttrMap) :
    Res (AttrMap × Option Slice × Option Err) :=
  loop (attrBody e h buf) (0, m)

/-- common/helpers.go:299-304 `NetlinkErrMessagetoStruct`: echoed header (may be nil) and the
signed error code. -/
def netlinkErrMessagetoStruct (e : Endian) (buf : List Byte) : Res (Option NlMsghdr × Int) := do
  let code ← dec32 e buf
  let r ← netlinkMessageToStruct e (← sliceFrom buf 4)
  pure (r.1, code.toInt)

/-- common/helpers.go:316-321 `IP2int`. -/
def ip2int (ip : List Byte) : Res U32 :=
  if ip.length = 16 then do dec32 .big (← slice ip 12 16)
  else dec32 .big ip

/-- common/helpers.go:324-328 `Int2ip`. -/
def int2ip (nn : U32) : Res (List Byte) := writeAt (zeros 4) 0 (enc32 .big nn)

end Verif.Common
