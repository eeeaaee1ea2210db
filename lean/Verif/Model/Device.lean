import Verif.Model.Conn
import Verif.Model.Make
import Verif.Model.Builder
/-!
# Devices of a connection manager

`ConnectionManager::getDevice` with the builder of node trees and the client factory, /repo/uhal/uhal/src/common/ConnectionManager.cpp:136-162. The parts are
modelled in `Verif/Model/Conn.lean`, `Verif/Model/Builder.lean`, `Verif/Model/Make.lean`, with the simplifications named there.
-/

set_option autoImplicit false

namespace Verif.Device

/-- What lies outside of the program: files with connections, files with address tables, name resolution; and what the program has set up:
the protocols of plugins, and those of them that the connection manager was told to enable. -/
structure Site where
  files : Conn.World
  tables : BuildEnv
  net : Make.World
  plugins : List Str
  enabled : List Str

/-- `mClientMap` of the client factory, ClientFactory.cpp:65-91, with the plugins loaded later. -/
def Site.registry (s : Site) : Uri.Registry := s.plugins.foldl (fun r q => Uri.Registry.add r q true) Uri.builtIn

/-- How `getDevice` ends. -/
inductive Got
  | ok (c : Make.Client) (n : Node)
  /-- `ConnectionUIDDoesNotExist` -/
  | noSuchId
  | tree (e : BuildExc)
  | client (e : Make.MExc)
  /-- `std::terminate` -/
  | terminate
  /-- address files that include each other -/
  | loops

/-- `getDevice(id)`, ConnectionManager.cpp:136-162: first the node tree, from the address table and the path of the connection file; then the client. The cache
of address files belongs to the builder. -/
def getDevice (s : Site) (fuel : Nat) (m : Conn.Mgr) (i : Str) (k : NodeCache) : Got × NodeCache :=
  match m.find i with
  | none => (.noSuchId, k)
  | some d =>
    match getNodeTree s.tables true fuel d.table d.file k with
    | .loops => (.loops, k)
    | .exc e k' => (.tree e, k')
    | .ok n k' =>
      match Make.client s.net s.registry s.enabled d.uri with
      | .ok c => (.ok c n, k')
      | .exc e => (.client e, k')
      | .terminate => (.terminate, k')

/-- Several calls one after the other; after `terminate` or an endless recursion there is nothing more. -/
def getDevices (s : Site) (fuel : Nat) (m : Conn.Mgr) : List Str → NodeCache → List Got × NodeCache
  | [], k => ([], k)
  | i :: is, k =>
    match getDevice s fuel m i k with
    | (.terminate, k') => ([.terminate], k')
    | (.loops, k') => ([.loops], k')
    | (g, k') => let q := getDevices s fuel m is k'; (g :: q.1, q.2)

end Verif.Device
