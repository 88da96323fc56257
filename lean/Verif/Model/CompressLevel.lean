import Verif.Model.Streams
/-
The compression level of content streams (gopdf.go 165-189, 2175; content_obj.go 25-50).
-/
namespace Verif.CompressLevel

/-- The calls. -/
inductive Call where
  | setCompressLevel (level : Int)
  | setNoCompression
  deriving DecidableEq

/-- `gp.compressLevel = zlib.DefaultCompression` (gopdf.go 2175, in `init`). -/
def initial : Int := -1

/-- `SetCompressLevel` (gopdf.go 172-184): too small is the default level, too big returns without setting anything;
`SetNoCompression` (187-189). -/
def step (cur : Int) : Call → Int
  | .setCompressLevel l => if l < -2 then -1 else if l > 9 then cur else l
  | .setNoCompression => 0

/-- The level after some calls on a new document. -/
def after (calls : List Call) : Int := calls.foldl step initial

/-- Whether the level is one `compress/zlib` has: `NewWriterLevel` fails for every other one (content_obj.go 31-35). -/
def writable (level : Int) : Bool := -2 ≤ level && level ≤ 9

/-- `isFlate` (content_obj.go 29). -/
def isFlate (level : Int) : Bool := level ≠ 0

end Verif.CompressLevel
