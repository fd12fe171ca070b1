import Verif.Model.Base
/-
Specification of the identification exchange, RFC 4253 section 4.2.
-/
namespace Nora.Spec

def crlf : Bytes := [13, 10]

/-- `s` contains no CR LF -/
def NoCrLf (s : Bytes) : Prop := ∀ a b, s ≠ a ++ crlf ++ b

/-- a position in the stream, given by the bytes before it, where a line starts -/
def LineStart (before : Bytes) : Prop := before = [] ∨ ∃ a, before = a ++ crlf

/-- an identification string of protocol 2.0 with its maximal length -/
def IsIdent (id : Bytes) : Prop :=
  (∃ text, id = b! "SSH-2.0-" ++ text) ∧ id.length ≤ 253 ∧ NoCrLf id

end Nora.Spec
