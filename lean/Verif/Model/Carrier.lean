import Verif.Model.JsonText
import Verif.Model.Python

/-!
# Trace carriers

Models the parts of `opsqueue/src/tracing.rs` that write and read the trace context of a submission: a dictionary of strings
(`CarrierMap`, tracing.rs 52), kept as JSON in the column `otel_trace_carrier`. What OpenTelemetry puts in the dictionary, and what it
makes of it, is not modelled.
-/

namespace Opsqueue.Carrier
open Wire (Json)

/-- `CarrierMap`, tracing.rs 52, as a list of entries. Simplification: the order of a hash map is whatever it is, here it is kept. -/
abbrev CarrierMap := List (String × String)

/-- `context_to_json`, tracing.rs 32-37, after `inject_context` filled the map: `serde_json::to_string`, which cannot fail here. -/
def contextToJson (m : CarrierMap) : String := String.ofList (JsonText.print (.obj (m.map fun kv => (kv.1, .str kv.2))))

/-- One entry, for serde's `HashMap<String, String>` (tracing.rs 49). -/
def readEntry : String × Json → Option (String × String)
  | (k, .str v) => some (k, v)
  | _ => none

/-- A `HashMap` filled with these entries, one after the other: the last value of a name is kept (tracing.rs 49). -/
def lastOfEach : CarrierMap → CarrierMap
  | [] => []
  | kv :: m => if m.any (·.1 == kv.1) then lastOfEach m else kv :: lastOfEach m

/-- `json_to_carrier`, tracing.rs 48-50: what cannot be read is the empty map. -/
def jsonToCarrier (s : String) : CarrierMap :=
  match JsonText.parse s.toList with
  | some (.obj fs) => ((fs.mapM readEntry).map lastOfEach).getD []
  | _ => []

/-- `submission_otel_trace_carrier` of the `Chunk` that a callback gets: `Chunk::from_internal`,
libs/opsqueue_python/src/common.rs 263-265. -/
def chunkCarrier (s : Submission) : CarrierMap := jsonToCarrier s.otel

/-- Can this be the name of a header (`HeaderName::try_from`; a token of RFC 9110, not empty)? -/
def isHeaderName (k : String) : Bool :=
  k != "" && k.toList.all fun c => c.isAlphanum || "!#$%&'*+-.^_`|~".toList.contains c

/-- Can this be the value of a header (`HeaderValue::try_from`; no control characters but the tabulator)? -/
def isHeaderValue (v : String) : Bool := v.toList.all fun c => c == '\t' || (32 ≤ c.toNat && c.toNat != 127)

/-- `otel_trace_carrier.try_into().unwrap_or_default()`, producer/client.rs 121: the headers of the insert request. If one entry
cannot be a header, there are none. Names are in lower case. Simplification: names and values are not too long. -/
def requestHeaders (m : CarrierMap) : CarrierMap :=
  if m.all fun kv => isHeaderName kv.1 && isHeaderValue kv.2 then m.map fun kv => (String.ofList (kv.1.toList.map Char.toLower), kv.2) else []

end Opsqueue.Carrier
