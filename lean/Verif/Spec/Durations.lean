import Verif.Model.Durations

/-!
# Vocabulary for statements about the durations of the configuration
-/

namespace Opsqueue.Durations

/-- A year of 365 days, in nanoseconds. -/
def year : Nat := 365 * 24 * 60 * 60 * 1000000000

/-- The command line accepts the durations. -/
def Accepted (cfg : Config) : Prop :=
  parses cfg.reservationExpiration ∧ parses cfg.heartbeatInterval ∧ parses cfg.maxSubmissionAge

/-- The computer has not been running for a thousand years. (The clock of the day can say anything from 1970 on, as `wall` is a
natural number.) -/
def Plausible (h : List Entry) : Prop := ∀ e ∈ h, e.mono ≤ 1000 * year

/-- The consumer has opened a connection, and has not closed it since. -/
def joined (c : Nat) : List Entry → Bool → Bool
  | [], b => b
  | e :: h, b =>
    joined c h (match e.event with
      | .connect d => b || d == c
      | .leave d => b && d != c
      | _ => b)

/-- After this history the server is running, and precisely the consumers who have connected and not left have a connection. -/
def Works (cfg : Config) (h : List Entry) : Prop := (run cfg h).up = true ∧ ∀ c, c ∈ (run cfg h).conns ↔ joined c h false = true

end Opsqueue.Durations
