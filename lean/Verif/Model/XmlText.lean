import Verif.Model.Xml

/-!
# From the text of a configuration file to the element tree

`fs::read_to_string` and `minidom::Element::from_str` (`xml_parser/xml_file_fd.rs` L47-61,
`xml_parser/xml_file_jac.rs` L146-160).  The parser is written from the XML recommendation, for the part of XML the
files of the repository use: tags with attributes in either kind of quotes, text, comments and, at the beginning, the XML
declaration.
References (`&...;`), CDATA, document types, namespaces and names with `:` are outside this part: on such texts, and on
texts which are not well formed, `parseXml` is `none`, and nothing is said about minidom there.
-/

namespace Nrf
namespace XmlText

def isSpace (c : Char) : Bool := c == ' ' || c == '\t' || c == '\n' || c == '\r'

/-- The ASCII part of the name characters, without the colon. -/
def isNameStart (c : Char) : Bool := c.isAlpha || c == '_'
def isNameChar (c : Char) : Bool := c.isAlphanum || c == '_' || c == '-' || c == '.'

/-- An element whose closing tag has not been read; the last child comes first. -/
structure Frame where
  name : String
  attrs : List (String × String)
  children : List Element

abbrev Attrs := List (String × String)

/-- What has been read of the current markup.  Names and values are kept reversed, so are attributes. -/
inductive Mode where
  /-- at the first character, after `<` there -/
  | start
  | startLt
  /-- between tags -/
  | text
  /-- after `<` -/
  | lt
  /-- in `<? ... ?>`; the flag tells that the last character was `?` -/
  | decl (q : Bool)
  /-- after `<!`, `<!-` -/
  | bang
  | bangDash
  /-- in a comment, after `-`, after `--` -/
  | comment
  | dash
  | dashes
  /-- in the name of an opening tag -/
  | name (n : List Char)
  /-- after `</`, in the name, after the name -/
  | close
  | closeName (n : List Char)
  | closeSpace (n : List Char)
  /-- in an opening tag, after a space -/
  | tag (n : List Char) (a : Attrs)
  /-- in the name of an attribute, after it, after `=` -/
  | key (n : List Char) (a : Attrs) (k : List Char)
  | keySpace (n : List Char) (a : Attrs) (k : List Char)
  | equals (n : List Char) (a : Attrs) (k : List Char)
  /-- in a value, after it -/
  | value (n : List Char) (a : Attrs) (k : List Char) (q : Char) (v : List Char)
  | valueEnd (n : List Char) (a : Attrs)
  /-- after the `/` of an empty element -/
  | slash (n : List Char) (a : Attrs)

structure State where
  mode : Mode
  /-- the open elements, the innermost first -/
  stack : List Frame
  /-- the finished root -/
  root : Option Element

def textOf (n : List Char) : String := String.ofList n.reverse

/-- Adds a finished element to the innermost open one, or makes it the root. -/
def finish (e : Element) : List Frame → Option Element → Option State
  | [], none => some ⟨.text, [], some e⟩
  | [], some _ => none
  | f :: fs, r => some ⟨.text, { f with children := e :: f.children } :: fs, r⟩

/-- The `>` of an opening tag.  A second root is refused. -/
def openTag (n : List Char) (a : Attrs) (st : List Frame) (r : Option Element) : Option State :=
  if st.isEmpty && r.isSome then none else some ⟨.text, ⟨textOf n, a.reverse, []⟩ :: st, r⟩

/-- The `>` of an empty element. -/
def emptyTag (n : List Char) (a : Attrs) (st : List Frame) (r : Option Element) : Option State :=
  finish (.mk (textOf n) a.reverse []) st r

/-- The `>` of a closing tag. -/
def closeTag (n : List Char) : List Frame → Option Element → Option State
  | [], _ => none
  | f :: fs, r => if f.name == textOf n then finish (.mk f.name f.attrs f.children.reverse) fs r else none

/-- The end of a value.  Attribute names are distinct. -/
def addAttr (a : Attrs) (k v : List Char) : Option Attrs :=
  if a.any (fun x => x.1 == textOf k) || textOf k == "xmlns" then none else some ((textOf k, textOf v) :: a)

/-- One character. -/
def step (s : State) (c : Char) : Option State :=
  let goto (m : Mode) : Option State := some { s with mode := m }
  match s.mode with
  | .start => if c == '<' then goto .startLt else if isSpace c then goto .text else none
  | .startLt =>
    if c == '?' then goto (.decl false)
    else if c == '!' then goto .bang
    else if isNameStart c then goto (.name [c]) else none
  | .text =>
    if c == '<' then goto .lt
    else if c == '&' then none
    else if s.stack.isEmpty && !isSpace c then none
    else goto .text
  | .lt =>
    if c == '/' then goto .close
    else if c == '!' then goto .bang
    else if isNameStart c then goto (.name [c]) else none
  | .decl q => if q && c == '>' then goto .text else goto (.decl (c == '?'))
  | .bang => if c == '-' then goto .bangDash else none
  | .bangDash => if c == '-' then goto .comment else none
  | .comment => if c == '-' then goto .dash else goto .comment
  | .dash => if c == '-' then goto .dashes else goto .comment
  | .dashes => if c == '>' then goto .text else none
  | .name n =>
    if isNameChar c then goto (.name (c :: n))
    else if isSpace c then goto (.tag n [])
    else if c == '/' then goto (.slash n [])
    else if c == '>' then openTag n [] s.stack s.root else none
  | .close => if isNameStart c then goto (.closeName [c]) else none
  | .closeName n =>
    if isNameChar c then goto (.closeName (c :: n))
    else if isSpace c then goto (.closeSpace n)
    else if c == '>' then closeTag n s.stack s.root else none
  | .closeSpace n => if isSpace c then goto (.closeSpace n) else if c == '>' then closeTag n s.stack s.root else none
  | .tag n a =>
    if isSpace c then goto (.tag n a)
    else if isNameStart c then goto (.key n a [c])
    else if c == '/' then goto (.slash n a)
    else if c == '>' then openTag n a s.stack s.root else none
  | .key n a k =>
    if isNameChar c then goto (.key n a (c :: k))
    else if isSpace c then goto (.keySpace n a k)
    else if c == '=' then goto (.equals n a k) else none
  | .keySpace n a k => if isSpace c then goto (.keySpace n a k) else if c == '=' then goto (.equals n a k) else none
  | .equals n a k =>
    if isSpace c then goto (.equals n a k)
    else if c == '"' || c == '\'' then goto (.value n a k c []) else none
  | .value n a k q v =>
    if c == q then (addAttr a k v).bind fun a => goto (.valueEnd n a)
    else if c == '<' || c == '&' || c == '\t' || c == '\n' || c == '\r' then none
    else goto (.value n a k q (c :: v))
  | .valueEnd n a =>
    if isSpace c then goto (.tag n a)
    else if c == '/' then goto (.slash n a)
    else if c == '>' then openTag n a s.stack s.root else none
  | .slash n a => if c == '>' then emptyTag n a s.stack s.root else none

/-- All characters, from the left. -/
def run (s : State) : List Char → Option State
  | [] => some s
  | c :: cs => (step s c).bind fun s => run s cs

/-- At the end all elements are closed. -/
def result (s : State) : Option Element :=
  match s.mode, s.stack with
  | .text, [] => s.root
  | _, _ => none

/-- `content.parse::<Element>()`. -/
def parseXml (text : List Char) : Option Element := (run ⟨.start, [], none⟩ text).bind result

end XmlText

/-- The panics of `from_xml_finite_diff` and `from_xml_jacobian`. -/
inductive FilePanic where
  /-- `fs::read_to_string(filepath).unwrap()` -/
  | unreadable
  /-- `content.parse().unwrap()` -/
  | malformed
  /-- what the tree does not contain -/
  | config (p : XmlPanic)
  deriving DecidableEq, Repr

section
variable {F α : Type}

/-- `read` are the files which can be read, with their content, `parse` is the XML parser. -/
def fromFile (read : String → Option String) (parse : List Char → Option Element)
    (fromTree : Element → Except XmlPanic α) (filepath : String) : Except FilePanic α :=
  match read filepath with
  | none => .error .unreadable
  | some content =>
    match parse content.toList with
    | none => .error .malformed
    | some root =>
      match fromTree root with
      | .error p => .error (.config p)
      | .ok cfg => .ok cfg

variable [Scalar F]

/-- `from_xml_finite_diff` (`xml_parser/xml_file_fd.rs` L39-49). -/
def fromXmlFiniteDiffFile (parseF : String → Option F) (read : String → Option String) (parse : List Char → Option Element)
    (filepath : String) : Except FilePanic (ParsedConfig F (IterativeParamsFD F)) :=
  fromFile read parse (fromXmlFiniteDiff parseF) filepath

/-- `from_xml_jacobian` (`xml_parser/xml_file_jac.rs` L138-148). -/
def fromXmlJacobianFile (parseF : String → Option F) (read : String → Option String) (parse : List Char → Option Element)
    (filepath : String) : Except FilePanic (ParsedConfig F (IterativeParams F)) :=
  fromFile read parse (fromXmlJacobian parseF) filepath

end
end Nrf
