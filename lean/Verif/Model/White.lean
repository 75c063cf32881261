/-! White space of texts. -/

namespace Dtn

/-- `char::is_whitespace` of the standard library, which `trim` and `split_whitespace` go by (used in
`routing/static_routing.rs:74,78`, `dtnd/ws.rs:213` and `ipnd/services.rs:119,152,220`). -/
def isWhite (c : Char) : Bool :=
  c = ' ' || (9 ≤ c.toNat && c.toNat ≤ 13) || c.toNat = 0x85 || c.toNat = 0xa0 || c.toNat = 0x1680 || (0x2000 ≤ c.toNat && c.toNat ≤ 0x200a) ||
    c.toNat = 0x2028 || c.toNat = 0x2029 || c.toNat = 0x202f || c.toNat = 0x205f || c.toNat = 0x3000

end Dtn
