import Verif.Model.Serialization
import Verif.Model.JsonReader
/-
The functions which write objects to files and read them back: serialization.py:126-175, bitwriter.py:315-323,
bitreader.py:56-65 and debugstring.py:100-137, 200-220.

An open file is written byte by byte.  A process which is killed, or whose write fails, leaves the effects of some of the first
operations behind.  (Simplifications: opening a file for writing succeeds; operations reach the disk in the order in which they
are made.)
-/
namespace Zserio

/-- the files by their names -/
abbrev Files := PyStr → Option (List UInt8)

/-- the operations which change a file -/
inductive FileOp where
  /-- `open(name, "w")`, `open(name, "wb")`: an empty file, whether or not there was one -/
  | create (name : PyStr)
  /-- a byte is added at the end -/
  | append (name : PyStr) (byte : UInt8)

/-- the files afterwards -/
def FileOp.apply (fs : Files) : FileOp → Files
  | .create f => fun g => if g = f then some [] else fs g
  | .append f b => fun g => if g = f then some ((fs f).getD [] ++ [b]) else fs g

/-- the files after some operations -/
def Files.run (fs : Files) (ops : List FileOp) : Files := ops.foldl FileOp.apply fs

/-- bitwriter.py:315-323 `to_file`; also the file written by debugstring.py:136 -/
def writeFile (f : PyStr) (bytes : List UInt8) : List FileOp := .create f :: bytes.map (.append f)

/-- bitreader.py:56-65 `from_file` -/
def Reader.fromFile (fs : Files) (f : PyStr) : Except Err Reader :=
  match fs f with
  | none => .error .os
  | some bytes => Reader.make bytes

/-- serialization.py:126-149 `serialize_to_file`: the object, whose offsets have been set, and the operations -/
def serializeToFile (k : Codec) (x : Val) (f : PyStr) : Except Err Val × List FileOp :=
  match serializeToWriter k x with
  | .error e => (.error e, [])
  | .ok (w, x) => (.ok x, writeFile f w.bytes)

/-- serialization.py:152-175 `deserialize_from_file` -/
def deserializeFromFile (k : Codec) (fs : Files) (f : PyStr) (args : List Int) : Except Err Val := do
  let r ← Reader.fromFile fs f
  (k.fromReader args r).1

/-- `TextIOWrapper.write` with `newline=None`: line feeds become the line separator of the platform -/
def lineEnds (linesep text : PyStr) : PyStr := text.flatMap fun c => if c = ch! '\n' then linesep else [c]

/-- `TextIOWrapper.read` with `newline=None`: all line ends become line feeds -/
def universalNewlines : PyStr → PyStr
  | [] => []
  | c :: rest =>
    if c = ch! '\r' then
      match rest with
      | d :: rest' => if d = ch! '\n' then ch! '\n' :: universalNewlines rest' else ch! '\n' :: universalNewlines (d :: rest')
      | [] => [ch! '\n']
    else c :: universalNewlines rest

namespace Json

/-- debugstring.py:100-137 `to_json_file`.  The file is created before the walk begins.  A text which cannot be encoded raises an
exception when it is written.  (Simplification: the characters before the first one which cannot be encoded are written; Python
writes none of the characters of this call of `write`.) -/
def toJsonFile {σ : Type} (t : PyText) (I : TypeInfos) (F : WalkFilter σ) (st : σ) (indent : Indent) (id : Nat) (o : Val)
    (linesep f : PyStr) : Except Err Unit × List FileOp :=
  match Walker.walk I F (some (.compound id)) o st with
  | (r, _, es) =>
    match JsonWriter.observeAll t (WriterConfig.new none none true indent) es JsonWriter.new with
    | (q, w) =>
      match utf8Encode (lineEnds linesep (w.out.takeWhile isScalar)) with
      | .error e => (.error e, [.create f])
      | .ok bytes =>
        (if w.out.all isScalar then (match q with | .error e => .error e | .ok () => r.map fun _ => ()) else .error .unicode,
          writeFile f bytes)

/-- debugstring.py:196-220 `from_json_file`; `split` tells in which pieces the text is read.  (Simplification: the file is decoded
before it is parsed.) -/
def fromJsonFile (t : PyText) (I : TypeInfos) (id : Nat) (args : List Int) (split : PyStr → List PyStr) (fs : Files) (f : PyStr) :
    Except Err Val :=
  match fs f with
  | none => .error .os
  | some bytes => do
    let text ← utf8Decode bytes
    fromJsonStream t I id args (split (universalNewlines text))

end Json
end Zserio
