import Verif.Spec.Limits
/-
Specification: why a connection is turned away, as it is worded in the server log.
-/
namespace Wayuu.Spec

/-- The rule, if it is for this URL, leaves room for another connection. -/
def Kept (live : List Conn) (ip url : List Byte) (l : PathLimit) : Prop :=
  CasePrefix l.path url →
    (liveUnder l.path live : Int) ≤ l.max_connections ∧ (liveUnderFrom l.path ip live : Int) ≤ l.max_connections_per_ip

/-- The reason why a connection is turned away: the first rule for its URL that is exceeded (the number of all connections is
looked at before that of the connections from the same address), or else the table that is full. -/
inductive Reason (limits : List PathLimit) (live : List Conn) (ip url : List Byte) : List Byte → Prop where
  | total (before after : List PathLimit) (l : PathLimit) : limits = before ++ l :: after → (∀ x ∈ before, Kept live ip url x) →
      CasePrefix l.path url → l.max_connections < liveUnder l.path live →
      Reason limits live ip url (b!"IP:" ++ ip ++ b!" denied, max_connections exceeded for " ++ l.path)
  | address (before after : List PathLimit) (l : PathLimit) : limits = before ++ l :: after → (∀ x ∈ before, Kept live ip url x) →
      CasePrefix l.path url → liveUnder l.path live ≤ l.max_connections → l.max_connections_per_ip < liveUnderFrom l.path ip live →
      Reason limits live ip url (b!"IP:" ++ ip ++ b!" denied, max_connections_per_ip exceeded for " ++ l.path)
  | full : (∀ x ∈ limits, Kept live ip url x) → (∀ c ∈ live, c.socket ≠ 0) →
      Reason limits live ip url b!"WS_MAX_CONNECTIONS reached"

end Wayuu.Spec
