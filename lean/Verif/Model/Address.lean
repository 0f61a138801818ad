import Verif.Model.Url
/-!
# What a proxy connects to (`makeConnector`, `src/frpcserverproxy.cc:103-114`; the connectors, `src/frpcconnector.cc`)
-/
namespace Frpc
namespace Address

/-- The peer: a name to be resolved, as an IPv6 address or not, and a port; the path of a unix socket. -/
inductive Peer where
  | inet (name : Bytes) (v6 : Bool) (port : Nat)
  | unix (path : Bytes)
deriving DecidableEq, Repr

/-- The constructor of `SimpleConnectorIPv6_t` (`src/frpcconnector.cc:327-357`): the name and the port that `getaddrinfo` gets. The first and the last character of an empty host are looked at, which is
undefined. -/
def inet (u : Url.Url) : Option Peer :=
  if u.host = [] then none
  else if u.host.head? = some 91 ∧ u.host.getLast? = some 93 then some (.inet ((u.host.drop 1).take (u.host.length - 2)) true u.port)
  else some (.inet u.host false u.port)

/-- `SimpleConnectorUnix_t::connectSocket` (`src/frpcconnector.cc:469-472`): `strncpy` of at most 108 bytes (`UNIX_PATH_MAX`), the last of which is set to NUL. -/
def unixPath (path : Bytes) : Bytes := (path.takeWhile (fun c => c ≠ 0)).take 107

/-- `makeConnector` (`src/frpcserverproxy.cc:103-114`) with `isUnix` (`src/frpchttp.cc:278-283`). -/
def peer (u : Url.Url) : Option Peer := if u.port = 0 then some (.unix (unixPath u.path)) else inet u

/-- The peer of a proxy made for these (`src/frpcserverproxy.cc:120-130`). -/
def peerFor (url proxyVia : Bytes) : Except Err (Option Peer) :=
  match Url.make url proxyVia with
  | .ok u => .ok (peer u)
  | .error e => .error e

end Address
end Frpc
