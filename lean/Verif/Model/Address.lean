import Verif.Model.Http

/-!
# Addresses: where the clients connect to

Models how the producer client (`Client::new`, opsqueue/src/producer/client.rs 53-64, and the URLs of its calls) and the consumer
client (`Client::new`, opsqueue/src/consumer/client.rs 263-270) make URLs of the address they are given (`opsqueue_url` in Python,
libs/opsqueue_python/src/producer.rs 60-71, src/consumer.rs 62-75), and how the libraries below them read these: the `url` crate
(through `reqwest`) and `http::Uri` (through `tokio_tungstenite`).

Simplification: an authority is kept as text. That of an `http::Uri` may have an empty port (`http:`), which is then the default
one; user names are not taken apart; the `url` crate's checks of the host are left out.
-/

namespace Opsqueue.Address
open Http (Seg isSep)

/-- `split_once("://")`, producer/client.rs 55: what is before the first occurrence and after it. -/
def splitOnce : List Char → Option (List Char × List Char)
  | [] => none
  | c :: cs =>
    if "://".toList.isPrefixOf (c :: cs) then some ([], cs.drop 2)
    else (splitOnce cs).map fun p => (c :: p.1, p.2)

/-- Where a request goes (producer/client.rs 83, consumer/client.rs 270-276). -/
structure Target where
  scheme : List Char
  authority : List Char
  path : List Seg
deriving DecidableEq, Repr

/-- Reading a URL with the scheme `http` or `https` (url crate, through `reqwest`, producer/client.rs 81-84): all slashes and
backslashes after the scheme are skipped; the authority ends at the next one, or at `?` or `#`. -/
def readUrl (t : List Char) : Option Target :=
  match splitOnce t with
  | none => none
  | some (scheme, rest) =>
    let rest := rest.dropWhile isSep
    let inside (c : Char) : Bool := !(isSep c || c == '?' || c == '#')
    some
      { scheme
        authority := rest.takeWhile inside
        path := match rest.dropWhile inside with
          | c :: path => if isSep c then Http.urlPath path else [[]]
          | [] => [[]] }

/-- Reading a URI (`http::Uri`, consumer/client.rs 270): nothing is skipped or resolved. -/
def readUri (t : List Char) : Option Target :=
  match splitOnce t with
  | none => none
  | some (scheme, rest) =>
    let inside (c : Char) : Bool := c != '/' && c != '?' && c != '#'
    some
      { scheme
        authority := rest.takeWhile inside
        path := match rest.dropWhile inside with
          | '/' :: path => Http.splitPath (path.takeWhile fun c => c != '?' && c != '#')
          | _ => [[]] }

/-- `Client::new` of the producer, producer/client.rs 53-64, and the URL of a call (83, 120, 165, 222, 255-257, 291-293, 347).
`none`: it panics. -/
def producerUrl (host : List Char) (c : Http.Call) : Option (List Char) :=
  match splitOnce host with
  | some (scheme, _) =>
    if scheme = "http".toList ∨ scheme = "https".toList then some (host ++ '/' :: Http.pathText c) else none
  | none => some ("http://".toList ++ host ++ '/' :: Http.pathText c)

/-- Where the request of a producer's call goes. -/
def producerTarget (host : List Char) (c : Http.Call) : Option Target := (producerUrl host c).bind readUrl

/-- The URL of the consumer client, consumer/client.rs 264-269. -/
def consumerUrl (url : List Char) : List Char :=
  if "ws://".toList.isPrefixOf url || "wss://".toList.isPrefixOf url then url ++ "/consumer".toList
  else "ws://".toList ++ url ++ "/consumer".toList

/-- Where the consumer client connects to, consumer/client.rs 264-276. -/
def consumerTarget (url : List Char) : Option Target := readUri (consumerUrl url)

/-- Whether the server accepts a consumer at this path: `/consumer`, nothing else (opsqueue/src/server.rs 119-121, axum's `nest`;
consumer/server/mod.rs 109-113, the route `/`). -/
def accepts (path : List Seg) : Bool := path == ["consumer".toList]

end Opsqueue.Address
