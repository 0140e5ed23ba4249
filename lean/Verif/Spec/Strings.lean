/-!
# Specification vocabulary: wildcard patterns, addresses
-/
namespace Tcpx.Spec

/-- What it means for a pattern to match: no `%` and equal, or `%x%`, `%x`, `x%` with `x` occurring in, ending, starting `s`. -/
def Matches (p s : List Char) : Prop :=
  ('%' ∉ p ∧ p = s) ∨ (∃ x, p = '%' :: (x ++ ['%']) ∧ x <:+: s) ∨ (∃ x, p = '%' :: x ∧ x <:+ s) ∨ (∃ x, p = x ++ ['%'] ∧ x <+: s)

/-- The text of a peer address: `host:port` for IPv4, `[host]:port` for IPv6 (whose hosts contain a colon). -/
def ipv4Text (host port : List Char) : List Char := host ++ ':' :: port
def ipv6Text (host port : List Char) : List Char := '[' :: (host ++ ']' :: ':' :: port)

end Tcpx.Spec
