/-!
Model of what the example server answers: `build_h3_response` (`/repo/apps/src/common.rs:900-1130`), the file
of an HTTP/0.9 request (common.rs:609-632) and `autoindex` (137-146). Paths are lists of characters, as on Unix.
The URL parser, the parser of numbers, the priority in the query and the file system are inputs.
-/

namespace Verif.Apps

/-- A path cut at the slashes. -/
def pieces : List Char → List (List Char)
  | [] => [[]]
  | c :: l =>
    if c = '/' then [] :: pieces l
    else match pieces l with
      | [] => [[c]]
      | h :: t => (c :: h) :: t

/-- `Path::components` without the root: empty pieces and single dots do not count. -/
def comps (p : List Char) : List (List Char) := (pieces p).filter fun c => c ≠ [] ∧ c ≠ ['.']

/-- The `Component::Normal` among them. -/
def normals (p : List Char) : List (List Char) := (comps p).filter fun c => c ≠ ['.', '.']

/-- `PathBuf::push` of a relative path. -/
def push (p v : List Char) : List Char := if p = [] ∨ p.getLast? = some '/' then p ++ v else p ++ '/' :: v

/-- `autoindex` (common.rs:137-146). -/
def autoindex (p index : List Char) : List Char := if p.getLast? = some '/' then p ++ index else p

/-- The file for the path of a URL (common.rs:903, 1082-1083 and 1103-1107). -/
def file3 (root index path : List Char) : List Char := (normals (autoindex path index)).foldl push root

/-- The file for an HTTP/0.9 request (common.rs:613-625). -/
def file09 (root index uri : List Char) : List Char := autoindex ((normals uri).foldl push root) index

/-- The names of header fields that are looked at. -/
inductive Name where
  | scheme | authority | path | method | protocol | priority | host | other
deriving DecidableEq

/-- A header field; `text` is its value if that is UTF-8. -/
structure Hdr where
  name : Name
  raw : List Nat
  text : Option (List Char)

/-- Why a request is malformed. -/
inductive Why where
  | twice (n : Name) | protocol | missing (n : Name) | empty (n : Name)
deriving DecidableEq

/-- What the server does; `reply` has the status, the body and the priority. -/
inductive Out where
  | panic
  | malformed (w : Why)
  | reply (status : Nat) (body prio : List Nat)
deriving DecidableEq

/-- The variables of the loop over the header fields. -/
structure Found where
  scheme : Option (List Char) := none
  authority : Option (List Char) := none
  path : Option (List Char) := none
  method : Option (List Char) := none
  host : Option (List Char) := none
  priority : List Nat := []

/-- The loop over the header fields (common.rs:912-971). -/
def scan (f : Found) : List Hdr → Except Out Found
  | [] => .ok f
  | h :: l =>
    match h.name with
    | .scheme => if f.scheme.isSome then .error (.malformed (.twice .scheme)) else
      match h.text with
      | none => .error .panic
      | some t => scan { f with scheme := some t } l
    | .authority => if f.authority.isSome then .error (.malformed (.twice .authority)) else
      match h.text with
      | none => .error .panic
      | some t => scan { f with authority := some t } l
    | .path => if f.path.isSome then .error (.malformed (.twice .path)) else
      match h.text with
      | none => .error .panic
      | some t => scan { f with path := some t } l
    | .method => if f.method.isSome then .error (.malformed (.twice .method)) else
      match h.text with
      | none => .error .panic
      | some t => scan { f with method := some t } l
    | .protocol => .error (.malformed .protocol)
    | .priority => scan { f with priority := h.raw } l
    | .host =>
      match h.text with
      | none => .error .panic
      | some t => scan { f with host := some t } l
    | .other => scan f l

/-- The inputs: the URL parser (the path and the priority in the query), the parser of numbers, the file system. -/
structure World where
  url : List Char → Option (List Char × Option (List Nat))
  num : List Char → Option Nat
  read : List Char → Option (List Nat)

/-- The method and the scheme (common.rs:973-1032), the host (1034-1061) and the path (1063-1077). -/
def checked (f : Found) : Except Out (List Char × List Char) :=
  match f.method with
  | none => .error (.malformed (.missing .method))
  | some method =>
    if method = [] then .error (.malformed (.empty .method))
    else if method = "CONNECT".toList then .error (.reply 405 [] [])
    else match f.scheme with
      | none => .error (.malformed (.missing .scheme))
      | some scheme =>
        if scheme ≠ "http".toList ∧ scheme ≠ "https".toList then .error (.reply 400 ("Invalid scheme".toList.map (·.toNat)) [])
        else
          let bad := match f.authority, f.host with
            | none, some [] => some (Why.empty .host)
            | some [], none => some (Why.empty .authority)
            | some [], some [] => some (Why.empty .authority)
            | none, none => some (Why.missing .authority)
            | _, _ => none
          match bad with
          | some w => .error (.malformed w)
          | none =>
            match f.authority with
            | none => .error .panic
            | some host =>
              match f.path with
              | some [] => .error (.malformed (.empty .path))
              | none => .error (.malformed (.missing .path))
              | some path => .ok (method, scheme ++ "://".toList ++ host ++ path)

/-- `STREAM_BYTES_PREFIX` (common.rs:1095). -/
def bytesPrefix : List Char := "/stream-bytes/".toList

/-- `strip_prefix`. -/
def strip : List Char → List Char → Option (List Char)
  | [], l => some l
  | _, [] => none
  | a :: p, b :: l => if a = b then strip p l else none

/-- `build_h3_response` (common.rs:900-1130), with the file it tries to read. A vector of more than
`isize::MAX` bytes panics. -/
def build (w : World) (root index : List Char) (req : List Hdr) : Out × Option (List Char) :=
  match scan {} req with
  | .error o => (o, none)
  | .ok f =>
    match checked f with
    | .error o => (o, none)
    | .ok (method, url) =>
      match w.url url with
      | none => (.panic, none)
      | some (path, query) =>
        let prio := query.getD f.priority
        if method = "GET".toList then
          match strip bytesPrefix path with
          | some suffix =>
            let n := (w.num suffix).getD 0
            if n ≥ 2 ^ 63 then (.panic, none) else (.reply 200 (List.replicate n 0x57) prio, none)
          | none =>
            let file := file3 root index path
            match w.read file with
            | some data => (.reply 200 data prio, some file)
            | none => (.reply 404 ("Not Found!".toList.map (·.toNat)) prio, some file)
        else (.reply 405 [] prio, none)

end Verif.Apps
