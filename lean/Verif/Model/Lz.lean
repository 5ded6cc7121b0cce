import Verif.Base.Ints

namespace Keramics.Lz

/-- The match copy loop: adc.rs:147-153, lznt1.rs:268-274, lzvn.rs:493-499, deflate.rs:513-519. -/
def copyMatch : Nat → List Byte → Nat → Nat → R (List Byte)
  | 0, buf, _, _ => .ok buf
  | n + 1, buf, dst, src => do
    let b ← R.get buf src
    let buf ← R.set buf dst b
    copyMatch n buf (dst + 1) (src + 1)

end Keramics.Lz
