import Verif.Text
import Verif.Validate5

/-!
SDK metrics in the user name of CONNECT (/repo/source/mqtt_iot_metrics.c) and the CONNECT operation that uses
them (/repo/source/v5/mqtt5_options_storage.c:638-824).

Simplifications: allocation never fails; `aws_query_string_params` (aws-c-common) is assumed to give the
non-empty pieces between ampersands, each cut at its first equals sign; the platform name is a parameter.
-/
namespace Mqtt.Metrics
open Mqtt.V5

/-- `struct aws_uri_param`, `struct aws_mqtt_metadata_entry`. -/
structure Param where
  key : Bytes
  value : Bytes
deriving DecidableEq, Repr

/-- `struct aws_mqtt_iot_metrics`. -/
structure Metrics where
  libraryName : Bytes := []
  entries : List Param := []
deriving DecidableEq, Repr

/-- A piece cut at its first `=` (106-117, and `aws_query_string_next_param`). -/
def cut : Bytes → Param
  | [] => ⟨[], []⟩
  | b :: bs => if b = 61 then ⟨[], bs⟩ else ⟨b :: (cut bs).key, (cut bs).value⟩

/-- `s_parse_delimited_entries` (82-122) and `aws_query_string_params`: the entries of the non-empty pieces. -/
def parseEntries (delimiter : UInt8) (content : Bytes) : List Param :=
  ((split delimiter content).filter (fun p => p.length ≠ 0)).map cut

/-- `s_find_param_by_key` (30-46). -/
def findParam (ps : List Param) (key : Bytes) : Option Nat := ps.findIdx? (fun p => p.key = key)

/-- `s_add_param_if_not_exists` (56-71). -/
def addIfAbsent (ps : List Param) (key value : Bytes) : List Param :=
  match findParam ps key with
  | some _ => ps
  | none => ps ++ [⟨key, value⟩]

/-- `s_merge_metadata_entries_no_overwrite` (131-140). -/
def mergeEntries (ps : List Param) (news : List Param) : List Param :=
  news.foldl (fun ps e => addIfAbsent ps e.key e.value) ps

/-- One parameter (205-224). -/
def writeParam (p : Param) : Bytes := p.key ++ if p.value.length > 0 then 61 :: p.value else []

/-- The loop of `s_build_delimited_params` (191-225). -/
def writeParams (delimiter : UInt8) : List Param → Bytes
  | [] => []
  | [p] => writeParam p
  | p :: ps => writeParam p ++ delimiter :: writeParams delimiter ps

/-- `s_build_delimited_params` (157-238). -/
def buildParams (pre post : Bytes) (delimiter : UInt8) (ps : List Param) : Bytes :=
  if ps.length = 0 then [] else pre ++ writeParams delimiter ps ++ post

/-- The size the same function computes (170-238). -/
def buildSize (preLen postLen : Nat) (ps : List Param) : Nat :=
  if ps.length = 0 then 0
  else preLen + postLen + (ps.length - 1) +
    ps.foldl (fun n p => n + p.key.length + if p.value.length > 0 then 1 + p.value.length else 0) 0

/-- `s_build_metadata_value` (249-259). -/
def metadataValue (ps : List Param) : Bytes := buildParams [40] [41] 59 ps

/-- `s_build_username_query` (272-305). -/
def usernameQuery (base : Bytes) (ps : List Param) : Bytes := base ++ buildParams [63] [] 38 ps

/-- Text before and after the last `?` (381-406). -/
def lastQuestion : Bytes → Option (Bytes × Bytes)
  | [] => none
  | b :: bs =>
    match lastQuestion bs with
    | some (x, y) => some (b :: x, y)
    | none => if b = 63 then some ([], bs) else none

def sdkKey : Bytes := [83, 68, 75]
def platformKey : Bytes := [80, 108, 97, 116, 102, 111, 114, 109]
def metadataKey : Bytes := [77, 101, 116, 97, 100, 97, 116, 97]
/-- `"IoTDeviceSDK/C"` (410). -/
def defaultLibrary : Bytes := [73, 111, 84, 68, 101, 118, 105, 99, 101, 83, 68, 75, 47, 67]

/-- The base of a user name and the parameters in it (379-406). -/
def parseUsername (username : Bytes) : Bytes × List Param :=
  match lastQuestion username with
  | some (base, query) => (base, parseEntries 38 query)
  | none => (username, [])

/-- Content of a `Metadata` value between parentheses (434-446); `none` is the wrong format. -/
def metadataContent (value : Bytes) : Option Bytes :=
  if value.length ≥ 2 ∧ value.head? = some 40 ∧ value.getLast? = some 41 then some (value.tail.dropLast) else none

/-- Metadata handling (417-486). -/
def addMetadata (ps : List Param) (news : List Param) : List Param :=
  if news.length = 0 then ps                                                       -- 417-419
  else
    match findParam ps metadataKey with                                            -- 428-430
    | none => ps ++ [⟨metadataKey, metadataValue (mergeEntries [] news)⟩]          -- 481-483
    | some i =>
      let value := (ps[i]?.map Param.value).getD []
      if value.length = 0 then ps.set i ⟨metadataKey, metadataValue (mergeEntries [] news)⟩
      else match metadataContent value with
        | none => ps                                                               -- 447-454
        | some content => ps.set i ⟨metadataKey, metadataValue (mergeEntries (parseEntries 59 content) news)⟩

/-- The parameters of the new user name (408-486). -/
def newParams (platform : Bytes) (m : Metrics) (ps : List Param) : List Param :=
  addMetadata
    (addIfAbsent
      (addIfAbsent ps sdkKey (if m.libraryName.length > 0 then m.libraryName else defaultLibrary))
      platformKey platform)
    m.entries

/-- `aws_mqtt_validate_iot_metrics` (642-664). -/
def validMetrics (m : Metrics) : Bool :=
  validUtf8Text m.libraryName && m.entries.all (fun e => validUtf8Text e.key && validUtf8Text e.value)

inductive Result where
  | ok (username : Bytes)
  | error
  /-- `aws_byte_buf_clean_up(NULL)` (522-524). -/
  | crash
deriving DecidableEq, Repr

/-- `aws_mqtt_append_sdk_metrics_to_username` (333-526); `output` says whether a buffer for the result is
given, else only the size is asked for. -/
def append (platform username : Bytes) (m : Option Metrics) (output : Bool) : Result :=
  match m with
  | none => .ok username                                                           -- 351-361
  | some m =>
    if !validMetrics m then .error                                                 -- 363-365
    else
      let (base, ps) := parseUsername username
      let ps := newParams platform m ps
      if base.length + buildSize 1 0 ps > 65535 then if output then .error else .crash   -- 493-500, 522-524
      else .ok (usernameQuery base ps)

inductive Connect where
  | ok (v : ConnectView)
  | refused
  | crash
deriving DecidableEq, Repr

/-- `aws_mqtt5_operation_connect_new` (mqtt5_options_storage.c:850-891) with the client's options: storage size
(638-680), then storage (682-824). -/
def connect (platform : Bytes) (m : Option Metrics) (v : ConnectView) : Connect :=
  if !validateConnect v then .refused
  else if v.username.any (fun s => s.length > 0) || m.isSome then                  -- 649, 704
    match append platform (v.username.getD []) m false with                        -- 653-658
    | .crash => .crash
    | _ =>
      match append platform (v.username.getD []) m true with                       -- 714-723
      | .ok u => .ok { v with username := some u }
      | .error => .refused
      | .crash => .crash
  else .ok { v with username := none }

end Mqtt.Metrics
