import Verif.Spec.Builder
/-
The exact text of documents and packets: compact JSON with the shortest escapes.
-/
namespace SIO.Spec

/-- Lower-case hexadecimal digit. -/
def lowHex (n : Nat) : Char := "0123456789abcdef".toList.getD n '0'

/-- One character inside a JSON string: quotes, backslashes and control characters are
escaped, control characters by a letter if there is one; nothing else is. -/
def quotedChar (c : Char) : List Char :=
  match [('"', '"'), ('\\', '\\'), ('\x08', 'b'), ('\t', 't'), ('\n', 'n'), ('\x0c', 'f'), ('\r', 'r')].lookup c with
  | some e => ['\\', e]
  | none => if c.toNat < 32 then "\\u00".toList ++ [lowHex (c.toNat / 16), lowHex (c.toNat % 16)] else [c]

/-- The inside of a JSON string. -/
def quotedBody (s : List Char) : List Char := s.flatMap quotedChar

/-- A JSON string. -/
def quoted (s : List Char) : List Char := '"' :: (quotedBody s ++ ['"'])

/-- Texts separated by commas. -/
def commas : List (List Char) → List Char
  | [] => []
  | [v] => v
  | v :: w :: vs => v ++ ',' :: commas (w :: vs)

mutual
/-- The compact text of a document without blobs. -/
def Doc.text : Doc → List Char
  | .null => "null".toList
  | .bool b => if b then "true".toList else "false".toList
  | .num l => l
  | .str s => quoted s
  | .blob _ => []
  | .arr ds => '[' :: (commas (docTexts ds) ++ [']'])
  | .obj kvs => '{' :: (commas (memberTexts kvs) ++ ['}'])
def docTexts : List Doc → List (List Char)
  | [] => []
  | d :: ds => d.text :: docTexts ds
def memberTexts : List (List Char × Doc) → List (List Char)
  | [] => []
  | (k, d) :: kvs => (quoted k ++ ':' :: d.text) :: memberTexts kvs
end

mutual
/-- The syntax tree of the compact text. -/
def Doc.tree : Doc → JTree
  | .null => .null
  | .bool b => .bool b
  | .num l => .num l
  | .str s => .str (quotedBody s)
  | .blob _ => .null
  | .arr ds => .arr (docTrees ds)
  | .obj kvs => .obj (memberTrees kvs)
def docTrees : List Doc → List JTree
  | [] => []
  | d :: ds => d.tree :: docTrees ds
def memberTrees : List (List Char × Doc) → List (List Char × JTree)
  | [] => []
  | (k, d) :: kvs => (quotedBody k, d.tree) :: memberTrees kvs
end

/-- The argument part after the given attempts to add an argument, those that succeeded with
the text written: no argument part without attempts, the array of the texts if the first
attempt succeeded.  If the first attempt failed, the opening bracket is missing (which is
what the code does, see C04). -/
def argPart : List (Option (List Char)) → Option (List Char)
  | [] => none
  | some t :: ts => some ('[' :: (commas (t :: ts.filterMap id) ++ [']']))
  | none :: ts => some ((ts.filterMap id).flatMap (',' :: ·) ++ [']'])

/-- The texts of the attempts in binary mode, with `n` attachments before. -/
def numberedTexts (n : Nat) : List (Option Doc) → List (Option (List Char))
  | [] => []
  | none :: ds => none :: numberedTexts n ds
  | some d :: ds => some (d.numbered n).text :: numberedTexts (n + d.blobs.length) ds

/-- The texts of the attempts. -/
def attemptTexts (binary : Bool) (ds : List (Option Doc)) : List (Option (List Char)) :=
  if binary then numberedTexts 0 ds else ds.map fun d => d.map fun d => d.plain.text

/-- The attachments of the attempts. -/
def attemptBlobs (ds : List (Option Doc)) : List (List UInt8) := blobsL (ds.filterMap id)

/-- The messages of an event or ack after the given attempts to add an argument. -/
def wireOf (ack binary : Bool) (ns : List Char) (id : Option Nat) (ds : List (Option Doc)) : List Ws :=
  textMessage ⟨kindDigit ack binary, if binary then some (attemptBlobs ds).length else none, nsPart ns, id,
    argPart (attemptTexts binary ds)⟩ ::
    (if binary then (attemptBlobs ds).map attachment else [])

end SIO.Spec
