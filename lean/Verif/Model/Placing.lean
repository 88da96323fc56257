import Verif.Model.Objects
import Verif.Model.Program
/-
Where pages, links, anchors and bookmarks lie: the calls of a program (Model/Program.lean) with their sizes and positions, and the
values the objects they make print (`Objects.Env`).

Simplifications: as in Model/Program.lean; rational numbers for floating point numbers.
-/
namespace Verif.Placing
open Objects (Box Env)

/-- `Box` as the caller gives it (box.go 3-6). -/
structure TrimBox where
  left : ℚ
  top : ℚ
  right : ℚ
  bottom : ℚ
  override : Units.Cfg := ⟨0, 0⟩
  deriving DecidableEq, Repr

/-- The calls.  Strings are bytes, a title is given by its characters. -/
inductive Call where
  /-- any other call of a program -/
  | other (c : Program.Call)
  /-- AddPageWithOption; AddPage is `addPage none none` (gopdf.go 800-803) -/
  | addPage (size : Option Units.Rect) (trim : Option TrimBox)
  | externalLink (url : Bytes) (x y w h : ℚ)
  | internalLink (anchor : Bytes) (x y w h : ℚ)
  | setAnchor (name : Bytes)
  | addOutline (title : List Nat)
  | addOutlineWithPosition (title : List Nat)

/-- The default size of pages, in points: `config.PageSize` after `init` (gopdf.go 2178). -/
def docSize (ce : Content.Env) (size : Units.Rect) : Units.Rect := size.toPointsC ce.cfg

/-- The size of a page with an option (gopdf.go 808): only the unit is passed, not the custom factor. -/
def optSize (ce : Content.Env) (r : Units.Rect) : Units.Rect := r.toPointsT ce.cfg.unit

/-- `curr.pageSize.H` after AddPageWithOption (gopdf.go 815-825). -/
def pageHeight (ce : Content.Env) (size : Units.Rect) : Option Units.Rect → ℚ
  | some r => (optSize ce r).h
  | none => (docSize ce size).h

/-- `Box.UnitsToPoints(t)` (box.go 9-27). -/
def TrimBox.points (b : TrimBox) (t : Int) : Box :=
  let c := if b.override.unit ≠ 0 then b.override else ⟨t, 0⟩
  ⟨Units.toPoints c b.left, Units.toPoints c b.top, Units.toPoints c b.right, Units.toPoints c b.bottom⟩

/-- `isTrimBoxSet` (page_option.go 13-22). -/
def boxSet (b : Box) : Bool := ¬(b.b = 0 ∧ b.a = 0 ∧ b.d = 0 ∧ b.c = 0)

/-- A number for a name: maps with string keys (`anchors`) have numbers as keys in Model/Doc.lean. -/
def code : Bytes → Nat
  | [] => 0
  | b :: l => b.toNat + 1 + 257 * code l

/-- A call of the program model, `tag` being the number of the call.  A link with an empty address is written as an internal link to
the anchor with the empty name (annot_obj.go 22-28; gopdf.go 1709). -/
def toCall (ce : Content.Env) (size : Units.Rect) (tag : Nat) : Call → Program.Call
  | .other c => c
  | .addPage s _ => .addPage (pageHeight ce size s)
  | .externalLink [] _ _ _ _ => .object (.internalLink (code []))
  | .externalLink _ _ _ _ _ => .object .externalLink
  | .internalLink a _ _ _ _ => .object (.internalLink (code a))
  | .setAnchor a => .object (.setAnchor (code a) tag)
  | .addOutline _ => .object (.addOutline tag)
  | .addOutlineWithPosition _ => .object (.addOutline tag)

/-- A whole program, the first call having number `tag`. -/
def toProgram (ce : Content.Env) (size : Units.Rect) : Nat → List Call → List Program.Call
  | _, [] => []
  | tag, c :: rest => toCall ce size tag c :: toProgram ce size (tag + 1) rest

/-- The rectangle of a link, as printed (gopdf.go 1706-1719; annot_obj.go 44, 54). -/
def linkBox (ce : Content.Env) (size : Units.Rect) (x y w h : ℚ) : Box :=
  let top := (docSize ce size).h - Units.toPoints ce.cfg y
  ⟨Units.toPoints ce.cfg x, top, Units.toPoints ce.cfg x + Units.toPoints ce.cfg w, top - Units.toPoints ce.cfg h⟩

/-- gopdf.go 1731. -/
def anchorHeight (ce : Content.Env) (size : Units.Rect) (s : Program.St) : ℚ :=
  (docSize ce size).h - s.content.cur.y + s.content.cur.fontSize

/-- gopdf.go 857. -/
def outlineHeight (ce : Content.Env) (size : Units.Rect) (s : Program.St) : ℚ := (docSize ce size).h - s.content.cur.y + 20

/-- What the call stores in the object it makes (the next index) or under its tag, `s` being the state before it. -/
def Stores (e : Env) (ce : Content.Env) (size : Units.Rect) (s : Program.St) : Call → Prop
  | .other _ => True
  /- gopdf.go 806-825, page_obj.go 58-64: without a size the option is not kept -/
  | .addPage none _ => e.pageSize s.doc.objs.length = none ∧ e.trimBox s.doc.objs.length = none
  | .addPage (some r) trim => e.pageSize s.doc.objs.length = some ((optSize ce r).w, (optSize ce r).h) ∧
      e.trimBox s.doc.objs.length = (trim.map (·.points ce.cfg.unit)).filter boxSet
  | .externalLink url x y w h => e.rect s.doc.objs.length = linkBox ce size x y w h ∧ e.url s.doc.objs.length = url
  | .internalLink _ x y w h => e.rect s.doc.objs.length = linkBox ce size x y w h
  | .setAnchor _ => e.anchorY s.next = anchorHeight ce size s
  /- outlines_obj.go 55-66: `height` is 0 -/
  | .addOutline title => e.title s.next = title ∧ e.outlineY s.doc.objs.length = 0
  | .addOutlineWithPosition title => e.title s.next = title ∧ e.outlineY s.doc.objs.length = outlineHeight ce size s

/-- What the calls of a program store. -/
def StoresAll (e : Env) (ce : Content.Env) (size : Units.Rect) : Program.St → List Call → Prop
  | _, [] => True
  | s, c :: rest => Stores e ce size s c ∧
    match Program.step ce s (toCall ce size s.next c) with
    | some s' => StoresAll e ce size s' rest
    | none => True

/-- No link, anchor, bookmark or page among the other calls: they have calls of their own here. -/
def plainOther : Program.Call → Bool
  | .addPage _ => false
  | .object .externalLink | .object (.internalLink _) | .object (.setAnchor _ _) | .object (.addOutline _) => false
  | _ => true

end Verif.Placing
