import Verif.Model.Client
import Verif.Spec.Head
/-!
# Specification: the request a client sends
-/

namespace Tophat.Spec

/-- Host and port of the address. -/
def authority (uri : ClientUri) : Option Bytes :=
  uri.host.map fun h => match uri.port with
    | some p => h ++ ascii ":" ++ p
    | none => h

/-- The request target: host and port for CONNECT, otherwise path and query. -/
def targetOf (method : Bytes) (uri : ClientUri) : Option Bytes :=
  if method = ascii "CONNECT" then (if uri.port = none then none else authority uri)
  else some (uri.path ++ match uri.query with
    | some q => ascii "?" ++ q
    | none => [])

/-- The fields of the request: a host unless the application gives one, what CONNECT needs, the length of the body, and the
application's fields. -/
def fieldsOf {σ : Type} (req : ClientRequest σ) (n : Nat) : Option (List (Bytes × Bytes)) :=
  (if req.headers.getAll (ascii "host") = [] then (authority req.uri).map fun a => [(ascii "host", a)] else some []).map fun host =>
    host ++ (if req.method = ascii "CONNECT" then [(ascii "proxy-connection", ascii "keep-alive")] else []) ++
      [(ascii "content-length", decimal n)] ++ req.headers.iter

/-- Request line, header block, blank line. -/
def renderRequest (method target : Bytes) (fs : List (Bytes × Bytes)) : Bytes :=
  method ++ ascii " " ++ target ++ ascii " HTTP/1.1\r\n" ++ renderFields fs ++ ascii "\r\n"

/-- The head of the request, if it has one: there is none if host or port are needed and the address does not have them, or
if the length of the body is not known. -/
def headOfRequest {σ : Type} (req : ClientRequest σ) : Option Bytes :=
  match targetOf req.method req.uri, req.length with
  | some t, some n => (fieldsOf req n).map (renderRequest req.method t)
  | _, _ => none

/-- The address has what the request needs of it. -/
def Addressed {σ : Type} (req : ClientRequest σ) : Prop :=
  (req.uri.host = none → req.method ≠ ascii "CONNECT" ∧ req.headers.getAll (ascii "host") ≠ []) ∧ (req.uri.port = none → req.method ≠ ascii "CONNECT")

end Tophat.Spec
