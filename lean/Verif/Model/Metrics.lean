import Verif.Model.Registry
import Verif.Model.Text
/-! # The pages of the HTTP interface (`protocols/http/`)

Simplified: the router of `axum` and the OpenAPI pages are left out; a page is the text of its body. -/
namespace Akasa

/-- `protocols/http/prometheus.rs:15-24` `prometheus_metrics`; `state.rs:86-88`
`online_clients_count`. -/
def metricsPage (r : Registry) : Str :=
  "# HELP ONLINE_CLIENTS Count of online clients\n".toList ++
  "# TYPE ONLINE_CLIENTS gauge\n".toList ++
  "ONLINE_CLIENTS ".toList ++ showNat r.online ++ "\n".toList

end Akasa
