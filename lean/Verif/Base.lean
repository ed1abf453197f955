/-
  Basic vocabulary shared by model and specifications.
-/
namespace Lukko

/-- One octet (`std::byte`). -/
abbrev Byte := UInt8

/-- A byte string (`std::span<const std::byte>`, `std::string_view`). -/
abbrev Bytes := List UInt8

/-- The bytes of an ASCII string literal (used for the protocol's fixed
strings such as `"ssh-connection"sv`). -/
def ascii (s : String) : Bytes := s.toList.map (fun c => UInt8.ofNat c.toNat)

/-- `e'` is a proper prefix of `e`. -/
def ProperPrefix (e' e : Bytes) : Prop := ∃ t, t ≠ [] ∧ e' ++ t = e

deriving instance DecidableEq for Except

end Lukko
