import Verif.Spec.Html
import Verif.Model.Peer
import Verif.Model.JsonText
/-! Specification vocabulary for the web pages. -/

namespace Dtn.Spec

/-- The kind of an address, with what comes before and after its texts as JSON. -/
def addressKind : PeerAddress → String × String
  | .ipv4 _ => ("{\"Ip\":", "}")
  | .ipv6 _ => ("{\"Ip\":", "}")
  | .generic _ => ("{\"Generic\":", "}")
  | .broadcastGeneric _ _ => ("{\"BroadcastGeneric\":[", "]}")

/-- The texts an address consists of. -/
def addressParts : PeerAddress → List String
  | .ipv4 a => [a]
  | .ipv6 a => [a]
  | .generic a => [a]
  | .broadcastGeneric d a => [d, a]

/-- The address of a neighbour as the page of neighbours writes it: its kind and its texts, as JSON. -/
def addressText (a : PeerAddress) : String :=
  String.ofList ((addressKind a).1.toList ++ [','].intercalate ((addressParts a).map JsonText.jsonString) ++ (addressKind a).2.toList)

/-- An address without characters that have a meaning in HTML. -/
def HarmlessAddress (a : PeerAddress) : Prop := ∀ s ∈ addressParts a, '<' ∉ s.toList ∧ '&' ∉ s.toList

end Dtn.Spec
