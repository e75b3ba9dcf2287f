import Verif.Model.Serde
/-!
# Specification: documents that say the same
-/

namespace Usbip.Spec

open Usbip

/- The same document with the entries of its objects in another order, at any depth. -/
mutual
inductive Reordered : Doc → Doc → Prop
  | same (d : Doc) : Reordered d d
  | arr {as bs : List Doc} (h : ReorderedList as bs) : Reordered (.arr as) (.arr bs)
  | obj {as bs cs : List (String × Doc)} (h : ReorderedEntries as bs) (hp : bs.Perm cs) : Reordered (.obj as) (.obj cs)

inductive ReorderedList : List Doc → List Doc → Prop
  | nil : ReorderedList [] []
  | cons {a b : Doc} {as bs : List Doc} (h : Reordered a b) (t : ReorderedList as bs) :
    ReorderedList (a :: as) (b :: bs)

inductive ReorderedEntries : List (String × Doc) → List (String × Doc) → Prop
  | nil : ReorderedEntries [] []
  | cons (k : String) {a b : Doc} {as bs : List (String × Doc)} (h : Reordered a b) (t : ReorderedEntries as bs) :
    ReorderedEntries ((k, a) :: as) ((k, b) :: bs)
end

/-- What was written, however its entries are reordered, is read back as what it was. -/
def Survives {α} (write : α → Doc) (read : Doc → Option α) : Prop :=
  ∀ x d, Reordered (write x) d → read d = some x

/-- The lengths of the arrays in a command. -/
def ArraysFit : Cmd → Prop
  | .reqImport _ busid => busid.length = 32
  | .submit _ _ _ _ _ _ setup _ _ => setup.length = 8
  | _ => True

/-- A device without its handlers. -/
def anonymous (d : Device) : Device :=
  { d with deviceHandler := none, interfaces := d.interfaces.map (fun i => { i with handler := 0 }) }

/-- Everything in a reply but the handlers of its devices. -/
def anonymousReply : Resp → Resp
  | .repDevlist st n ds => .repDevlist st n (ds.map anonymous)
  | .repImport st d => .repImport st (d.map anonymous)
  | r => r

end Usbip.Spec
