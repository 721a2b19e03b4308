import Verif.Model.Tags
import Verif.Model.Prim
/-! # Stream header -/

namespace V8

/-- `kLatestVersion` (constants.py 33) -/
def kLatestVersion : Nat := 15

/-- `write_header` (encode.py 244-247) on a fresh stream. -/
def writeHeader : Bytes := Tag.kVersion.byte :: writeVarint kLatestVersion

/-- `read_header` (decode.py 295-306); returns the version, which the stream keeps. -/
def readHeader : Rd Nat := do
  let _ ← readThisTag .kVersion
  let version ← readVarint
  if version > kLatestVersion || version < 13 then Rd.fail (throwFmt version) else return version

end V8
