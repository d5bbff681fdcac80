/-! Population count. -/
namespace Riptide.Bits

/-- The number of one bits among the lowest `w` bits. -/
def ones (w n : Nat) : Nat := (List.range w).countP fun i => n.testBit i

end Riptide.Bits
