/-!
The check of the configuration files of the ControlHub before it starts:
controlhub/rel/files/nodetool:227-273 (`check_config_file`), with the names of
controlhub/src/ch_config.erl:96-100 and the reading of ch_config.erl:40-66.

Simplified: file names are not resolved, `file:consult` is a function from names to
contents, keys are texts, the messages are left out.
-/

set_option autoImplicit false

namespace Verif.ChkConfig

/-- An element of the list in a configuration file, as the check sees it
(nodetool:239-242, 257). -/
inductive Item where
  -- `{controlhub, L}` with the keys of `L`
  | controlhub (keys : List String)
  -- a text: the name of another file
  | file (name : String)
  | other
deriving DecidableEq, Repr

/-- What `file:consult` gives, nodetool:233-236, 264-273. -/
inductive Content where
  -- one term, a list
  | items (l : List Item)
  -- other terms
  | notOneList
  -- an error in reading or parsing
  | error
deriving DecidableEq, Repr

/-- `ch_config:get_parameter_names`, ch_config.erl:97-100. -/
def valid : List String :=
  ["tcp_listen_port", "tcp_socket_opts", "max_udp_in_flight",
   "device_response_timeout", "device_client_shutdown_after",
   "device_allowlist", "device_allowlist_file", "device_allowlist_mode"]

/-- The parameters that `ch_config:init` takes from the environment of the application,
ch_config.erl:48-54. -/
def reads : List String :=
  ["tcp_listen_port", "max_udp_in_flight", "device_response_timeout",
   "device_client_shutdown_after", "device_allowlist_mode", "device_allowlist_file"]

/-- `DefinedParams`, nodetool:238-246. -/
def defined : List Item → List String
  | [] => []
  | .controlhub ks :: l => ks ++ defined l
  | _ :: l => defined l

/-- `ReferencedFiles`, nodetool:257. -/
def referenced : List Item → List String
  | [] => []
  | .file f :: l => f :: referenced l
  | _ :: l => referenced l

/-- The results of the referenced files folded together, nodetool:258-263; `none` if one of
the calls does not end. -/
def checkAll (g : String → Option Bool) : List String → Option Bool
  | [] => some true
  | f :: fs =>
    match g f, checkAll g fs with
    | some a, some b => some (a && b)
    | _, _ => none

/-- `check_config_file`, nodetool:232-273; with a bound on the depth of the calls, `none` if
it does not end within it. -/
def check (fs : String → Content) : Nat → String → Option Bool
  | 0, _ => none
  | n + 1, f =>
    match fs f with
    | .items l =>
      let invalid := (defined l).filter fun k => !valid.contains k
      (checkAll (check fs n) (referenced l)).map fun b => invalid.isEmpty && b
    | _ => some false

end Verif.ChkConfig
