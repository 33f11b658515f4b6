/-
Model of `utils/file/file.go`: `GetFileExt`, `GetFileRealName`, `SaveFile`, `WriteJSON` and `ReadFile`.

Simplifications: a file system is a map from names to contents; a name that can be opened can be written; strings are
lists of bytes. Opening and writing succeed or fail; a write that fails has written some of the bytes.
-/
namespace Braid.Files

/-- Names and contents. (utils/file/file.go:22-87) -/
abbrev Bytes := List UInt8

/-- `.` (utils/file/file.go:22-47) -/
def dot : UInt8 := 46

/-- `strings.LastIndex(s, ".")`, which is `bytealg.LastIndexByteString`: from the end to the beginning; `i` is the
index of the end of the part not looked at yet. (utils/file/file.go:22-47) -/
def lastIndexFrom (s : Bytes) : Nat → Int
  | 0 => -1
  | i + 1 => if s[i]? = some dot then i else lastIndexFrom s i

/-- `strings.LastIndex` of a dot. (utils/file/file.go:22-47) -/
def lastIndex (s : Bytes) : Int := lastIndexFrom s s.length

/-- L22-34 `GetFileExt`. (utils/file/file.go:22-34) -/
def getFileExt (f : Bytes) : Bytes :=
  if f = [] then [] else if lastIndex f < 0 then [] else f.drop (lastIndex f).toNat

/-- L37-47 `GetFileRealName`. (utils/file/file.go:37-47) -/
def getFileRealName (f : Bytes) : Bytes :=
  if f = [] then [] else if lastIndex f < 0 then [] else f.take (lastIndex f).toNat

/-- The files: names and contents. (utils/file/file.go:50-87) -/
abbrev Fs := String → Option Bytes

/-- Stores a file. (utils/file/file.go:67-87) -/
def put (fs : Fs) (p : String) (b : Bytes) : Fs := fun x => if x = p then some b else fs x

/-- How an operation goes: the file cannot be opened, the write fails after `n` bytes, or all is well.
(utils/file/file.go:50-87) -/
inductive Out
  | noOpen
  | short (n : Nat)
  | ok
deriving DecidableEq

/-- Writing at offset 0 of a file with the contents `old`. (utils/file/file.go:76-87) -/
def overwrite (old new : Bytes) : Bytes := new ++ old.drop new.length

/-- L67-73 `SaveFile`: `ioutil.WriteFile` opens with `O_WRONLY|O_CREATE|O_TRUNC`. The result is whether there was no
error. (utils/file/file.go:67-73) -/
def saveFile (fs : Fs) (p : String) (d : Bytes) : Out → Fs × Bool
  | .noOpen => (fs, false)
  | .short n => (put fs p (d.take n), false)
  | .ok => (put fs p d, true)

/-- L76-87 `WriteJSON`: opens with `O_RDWR|O_CREATE`, without `O_TRUNC`; on an error `log.Fatal` ends the process
(`false`). (utils/file/file.go:76-87) -/
def writeJSON (fs : Fs) (p : String) (d : Bytes) : Out → Fs × Bool
  | .noOpen => (fs, false)
  | .short n => (put fs p (overwrite ((fs p).getD []) (d.take n)), false)
  | .ok => (put fs p (overwrite ((fs p).getD []) d), true)

/-- L56-64 `ReadFile`: all of the file, or an error if it does not exist. (utils/file/file.go:56-64) -/
def readFile (fs : Fs) (p : String) : Option Bytes := fs p

end Braid.Files
