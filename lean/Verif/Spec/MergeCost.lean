import Verif.Spec.Dom
/-!
# Specification: bytes copied when texts are merged
-/
namespace KissXml.Spec

/-- the bytes of a text; none for other nodes -/
def textBytes : Node → Nat
  | .text t => blen t
  | _ => 0

/-- the bytes of the texts at the beginning of a list, up to the first other node -/
def leading (l : List Node) : Nat := ((l.takeWhile Node.isText).map textBytes).sum

/-- For every text that a text follows, the bytes from the beginning of this text to the end of the last of the texts in a row: such a text
is copied once with all that follow it. -/
def copied : List Node → Nat
  | .text t :: .text u :: l => leading (.text t :: .text u :: l) + copied (.text u :: l)
  | _ :: l => copied l
  | [] => 0

end KissXml.Spec
