import Verif.Model.Xml

/-!
# The ways to lay out an element tree as a text

From the XML recommendation, independent of the parser.
-/

namespace Nrf
namespace Spec

/-- White space, possibly empty. -/
def Blank (s : List Char) : Prop := ∀ c ∈ s, c ∈ [' ', '\t', '\n', '\r']

/-- Names: ASCII letters, digits, `_`, `-` and `.`, beginning with a letter or `_`. -/
def Name (s : String) : Prop :=
  ∃ c cs, s.toList = c :: cs ∧ (c.isAlpha ∨ c = '_') ∧ ∀ d ∈ cs, d.isAlphanum ∨ d ∈ ['_', '-', '.']

/-- The text of a comment. -/
def Comment (t : List Char) : Prop :=
  ∃ body, t = "<!--".toList ++ body ++ "-->".toList ∧ ¬ ['-', '-'] <:+: body ∧ ¬ ['-'] <:+ body

/-- White space and comments, which may stand anywhere between tags. -/
inductive Misc : List Char → Prop
  | blank {s} (h : Blank s) : Misc s
  | comment {s c t} (hs : Misc s) (hc : Comment c) (ht : Blank t) : Misc (s ++ c ++ t)

/-- The same with text, which may stand between the tags inside an element. -/
inductive Content : List Char → Prop
  | text {s} (h : ∀ c ∈ s, c ≠ '<' ∧ c ≠ '&') : Content s
  | comment {s c t} (hs : Content s) (hc : Comment c) (ht : ∀ c ∈ t, c ≠ '<' ∧ c ≠ '&') : Content (s ++ c ++ t)

/-- One attribute: any white space around `=`, either kind of quotes. -/
def AttrText (k v : String) (t : List Char) : Prop :=
  ∃ s s' q, Blank s ∧ Blank s' ∧ (q = '"' ∨ q = '\'') ∧ q ∉ v.toList ∧
    t = k.toList ++ s ++ '=' :: s' ++ q :: v.toList ++ [q]

/-- The attributes of an element, each after at least one white space. -/
inductive AttrsText : List (String × String) → List Char → Prop
  | nil : AttrsText [] []
  | cons {k v a s t ts} (hs : Blank s) (hne : s ≠ []) (h : AttrText k v t) (hr : AttrsText a ts) :
      AttrsText ((k, v) :: a) (s ++ t ++ ts)

/-- Names and values which can be written without references. -/
structure Plain (n : String) (a : List (String × String)) : Prop where
  name : Name n
  keys : ∀ x ∈ a, Name x.1 ∧ x.1 ≠ "xmlns"
  values : ∀ x ∈ a, ∀ c ∈ x.2.toList, c ∉ ['<', '&', '\t', '\n', '\r']
  distinct : (a.map (·.1)).Nodup

mutual
/-- The layouts of an element. -/
inductive Layout : Element → List Char → Prop
  | empty {n a t s} (hp : Plain n a) (ht : AttrsText a t) (hs : Blank s) :
      Layout (.mk n a []) ('<' :: n.toList ++ t ++ s ++ "/>".toList)
  | full {n a t s es u s'} (hp : Plain n a) (ht : AttrsText a t) (hs : Blank s) (hu : Layouts es u) (hs' : Blank s') :
      Layout (.mk n a es) ('<' :: n.toList ++ t ++ s ++ '>' :: u ++ "</".toList ++ n.toList ++ s' ++ [ '>' ])
/-- The layouts of the children. -/
inductive Layouts : List Element → List Char → Prop
  | nil {u} (hu : Content u) : Layouts [] u
  | cons {u e es t v} (hu : Content u) (he : Layout e t) (hv : Layouts es v) : Layouts (e :: es) (u ++ t ++ v)
end

/-- The XML declaration. -/
def Declaration (t : List Char) : Prop := ∃ body, t = "<?".toList ++ body ++ "?>".toList ∧ ¬ "?>".toList <:+: body

/-- A document: an optional declaration, the root element, and white space and comments around it. -/
inductive XmlDocument : Element → List Char → Prop
  | bare {e s t u} (hs : Misc s) (ht : Layout e t) (hu : Misc u) : XmlDocument e (s ++ t ++ u)
  | declared {e d s t u} (hd : Declaration d) (hs : Misc s) (ht : Layout e t) (hu : Misc u) :
      XmlDocument e (d ++ s ++ t ++ u)

end Spec
end Nrf
