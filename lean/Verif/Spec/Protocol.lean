import Verif.Model.Parser

/-!
The server's side of the wire format, written from the ClickHouse native protocol (which fields a message has from which
revision on), independently of the client's parser. Primitive encodings are those characterised by C01, C03 and C04.
-/

namespace CH.Spec

/-- A field present from revision `min` on. -/
def fieldSince (revision min : Nat) (b : Bytes) : Bytes := if min ≤ revision then b else []

/-- Server hello. The server announces its own revision, which decides what follows. -/
def encHello (i : ServerInfo) : Bytes :=
  putUvarint 0 ++ putString i.name ++ putUvarint i.major ++ putUvarint i.minor ++ putUvarint i.revision ++
    fieldSince i.revision 54058 (putString (String.ofList i.timezone)) ++
    fieldSince i.revision 54372 (putString i.displayName) ++
    fieldSince i.revision 54401 (putUvarint i.patch)

/-- Fields a revision does not have are absent (zone UTC, empty display name, patch 0); numbers and lengths fit 64 bits. -/
structure HelloOK (known : Tz → Bool) (i : ServerInfo) : Prop where
  name : (strBytes i.name).length < 2 ^ 63
  major : i.major < 2 ^ 64
  minor : i.minor < 2 ^ 64
  revision : i.revision < 2 ^ 64
  tz : if 54058 ≤ i.revision then known i.timezone = true ∧ (strBytes (String.ofList i.timezone)).length < 2 ^ 63
    else i.timezone = "UTC".toList
  display : if 54372 ≤ i.revision then (strBytes i.displayName).length < 2 ^ 63 else i.displayName = ""
  patch : if 54401 ≤ i.revision then i.patch < 2 ^ 64 else i.patch = 0

/-- Progress message in the protocol of a revision. -/
def encProgress (revision : Nat) (p : Progress) : Bytes :=
  putUvarint 3 ++ putUvarint p.rows ++ putUvarint p.bytes ++ fieldSince revision 51554 (putUvarint p.totalRows) ++
    fieldSince revision 54420 (putUvarint p.writtenRows) ++ fieldSince revision 54420 (putUvarint p.writtenBytes)

/-- Fields a revision does not have are zero. -/
structure ProgressOK (revision : Nat) (p : Progress) : Prop where
  rows : p.rows < 2 ^ 64
  bytes : p.bytes < 2 ^ 64
  total : if 51554 ≤ revision then p.totalRows < 2 ^ 64 else p.totalRows = 0
  wrows : if 54420 ≤ revision then p.writtenRows < 2 ^ 64 else p.writtenRows = 0
  wbytes : if 54420 ≤ revision then p.writtenBytes < 2 ^ 64 else p.writtenBytes = 0

/-- Profile info message. -/
def encProfileInfo (p : ProfileInfo) : Bytes :=
  putUvarint 6 ++ putUvarint p.rows ++ putUvarint p.blocks ++ putUvarint p.bytes ++ putBool p.appliedLimit ++
    putUvarint p.rowsBeforeLimit ++ putBool p.calculated

/-- Numbers fit 64 bits. -/
structure ProfileOK (p : ProfileInfo) : Prop where
  rows : p.rows < 2 ^ 64
  blocks : p.blocks < 2 ^ 64
  bytes : p.bytes < 2 ^ 64
  before : p.rowsBeforeLimit < 2 ^ 64

/-- Table columns message. -/
def encTableColumns (t c : String) : Bytes := putUvarint 11 ++ putString t ++ putString c

/-- The fields of an exception message that the client reads. -/
def encExceptionFields (e : ServerError) : Bytes :=
  putUvarint 2 ++ putLE 4 e.code ++ putString e.name ++ putString e.message ++ putString e.stackTrace

/-- An exception message as the server sends it: the fields are followed by a flag telling whether a nested exception follows. -/
def encException (e : ServerError) : Bytes := encExceptionFields e ++ putBool false

/-- Code and lengths fit. -/
structure ExceptionOK (e : ServerError) : Prop where
  code : e.code < 256 ^ 4
  name : (strBytes e.name).length < 2 ^ 63
  message : (strBytes e.message).length < 2 ^ 63
  trace : (strBytes e.stackTrace).length < 2 ^ 63

/-- Message numbers the client knows. -/
def knownPackets : List Nat := [0, 1, 2, 3, 4, 5, 6, 7, 8, 11]

end CH.Spec
