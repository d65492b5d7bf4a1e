import Verif.Model.Address
import Verif.Spec.Http

/-!
# Specification: addresses

A server is at a place: at a host, with or without a port (the authority), and perhaps below a path. An address names a place, with
or without a scheme.
-/

namespace Opsqueue.Address
open Http (Seg)

/-- Where a server is. -/
structure Place where
  authority : List Char
  dir : List Seg := []
deriving DecidableEq, Repr

/-- No character means something in a URL. -/
def PlainText (t : List Char) : Prop := t ≠ [] ∧ ∀ c ∈ t, c ∉ ['/', '\\', '?', '#', '%'] ∧ 32 < c.toNat

/-- Host, port and path are made of ordinary characters. -/
def Place.Plain (p : Place) : Prop :=
  PlainText p.authority ∧ ∀ s ∈ p.dir, PlainText s ∧ s ≠ ".".toList ∧ s ≠ "..".toList

/-- The address of a place, for example `localhost:3999`, `https://services.example.com/opsqueue`, or `http://localhost:3999/` with
a slash at the end. -/
def Place.address (p : Place) (scheme : Option String) (slash : Bool := false) : List Char :=
  (match scheme with
    | none => []
    | some s => s.toList ++ "://".toList) ++
  p.authority ++ p.dir.flatMap ('/' :: ·) ++ (if slash then ['/'] else [])

/-- The prefix, if the call is for one, is an ordinary one (see C58). -/
def PlainCall (c : Http.Call) : Prop := ∀ p, c = .lookupPrefix p → Http.PlainPrefix p

/-- The request of the call goes to the server at the place, with this scheme, and is for what the call asks. -/
def ProducerReaches (p : Place) (scheme : String) (c : Http.Call) (address : List Char) : Prop :=
  producerTarget address c = some ⟨scheme.toList, p.authority, p.dir ++ (Http.request c).path⟩

/-- The consumer connects to the server at the place, with this scheme. -/
def ConsumerReaches (p : Place) (scheme : String) (address : List Char) : Prop :=
  consumerTarget address = some ⟨scheme.toList, p.authority, p.dir ++ ["consumer".toList]⟩

end Opsqueue.Address
