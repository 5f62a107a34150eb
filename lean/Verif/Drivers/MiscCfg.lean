import Verif.Basic
/-
drivers/misc/misc-atsamx7x_matrix.c, misc-stm32h7xx_dmamux.c, misc-rp2040_reset.c, staging/drivers/misc/misc-nxp_igf.c (C122): settings of the bus matrix, the DMA request multiplexer, the input glitch filter, the resets.

The registers of a block are words at byte offsets; the offsets follow from the fields of the structs, which have no padding.
-/
namespace Pico.MiscCfg

abbrev Word := BitVec 32
/-- the registers of a block, by offset -/
abbrev Mem := Nat → Word

def put (m : Mem) (a : Nat) (v : Word) : Mem := fun i => if i = a then v else m i

/-! ### misc-atsamx7x_matrix.c -/
namespace Matrix

/-- struct ATSAMX7X_MATRIX, misc-atsamx7x_matrix.c:4-27: 13 words, 3, 9, 7, 9 pairs, 14, 1, 3, then CCFG_CAN0, CCFG_SYSIO -/
def mcfg (i : Nat) : Nat := 4 * i
def scfg (i : Nat) : Nat := 4 * (13 + 3 + i)
def can0 : Nat := 4 * (13 + 3 + 9 + 7 + 2 * 9 + 14 + 1 + 3)
def sysio : Nat := can0 + 4

/-- atsamx7x_matrix_set_mcfg, misc-atsamx7x_matrix.c:75-83; none: -EINVAL -/
def setMcfg (index ulbt : Nat) (m : Mem) : Option Mem :=
  if index < 12 then (if ulbt < 8 then some (put m (mcfg index) (BitVec.ofNat 32 ulbt &&& 7#32)) else none) else none

/-- atsamx7x_matrix_set_scfg, misc-atsamx7x_matrix.c:85-98, with the field macros, :32-37 -/
def setScfg (index fixed type slot : Nat) (m : Mem) : Option Mem :=
  if index < 8 then
    if fixed ≤ 0xf then
      if type < 3 then
        if slot ≤ 0x1ff then
          some (put m (scfg index) ((BitVec.ofNat 32 fixed &&& 0xf#32) <<< 18 ||| (BitVec.ofNat 32 type &&& 3#32) <<< 16 ||| (BitVec.ofNat 32 slot &&& 0x1ff#32) <<< 1))
        else none
      else none
    else none
  else none

/-- the two writes of atsamx7x_matrix_set_can0dmaba, misc-atsamx7x_matrix.c:100-105, and set_can1dmaba, :107-112, at `a` -/
def setDma (a : Nat) (addr : BitVec 16) (m : Mem) : Mem :=
  let m := put m a (m a &&& ~~~((0xffff#32) <<< 16))
  put m a (m a ||| (addr.setWidth 32 &&& 0xffff#32) <<< 16)

def setCan0 (addr : BitVec 16) (m : Mem) : Mem := setDma can0 addr m
def setCan1 (addr : BitVec 16) (m : Mem) : Mem := setDma sysio addr m

end Matrix

/-! ### misc-stm32h7xx_dmamux.c -/
namespace Dmamux

/-- dmamux_stm32h7xx_init, misc-stm32h7xx_dmamux.c:51-59: the channel kept, or -EINVAL -/
def init (channel : Nat) : Option Nat := if channel < 16 then some channel else none

/-- dmamux_stm32h7xx_set_dmareq_id, misc-stm32h7xx_dmamux.c:71-77; CxCR is the first field -/
def setReq (channel id : Nat) (m : Mem) : Option Mem := if id ≤ 0x7f then some (put m (4 * channel) (BitVec.ofNat 32 id &&& 0x7f#32)) else none

end Dmamux

/-! ### misc-nxp_igf.c -/
namespace Igf

/-- get_MCR, misc-nxp_igf.c:44-56, over struct NXP_IGF, :9-36: the words of channel 0 (2 + 2 + 1 + 2 + 1 + 1 + 7), of A[i] (2 + 6 + 1 + 8), of channel 32 (2 + 2 + 1 + 2 + 1 + 8), of B[i] (2 + 6 + 1 + 8) -/
def mcr (ch : Nat) : Nat :=
  if ch = 0 then 0
  else if ch < 32 then 4 * (16 + 17 * (ch - 1))
  else if ch = 32 then 4 * (16 + 17 * 31)
  else 4 * (16 + 17 * 31 + 16 + 17 * (ch - 33))

/-- nxp_igf_init, misc-nxp_igf.c:58-72 -/
def init (ch : Nat) (m : Mem) : Option (Nat × Mem) := if ch < 46 then some (ch, put m (mcr ch) (1#32 <<< 6)) else none

/-- nxp_igf_setup, misc-nxp_igf.c:74-82 -/
def setup (ch : Nat) (invert : Bool) (m : Mem) : Mem := put m (mcr ch) (if invert then m (mcr ch) ||| 1#32 <<< 7 else m (mcr ch) &&& ~~~(1#32 <<< 7))

end Igf

/-! ### misc-rp2040_reset.c -/
namespace Rp

/-- rp2040_reset_init, misc-rp2040_reset.c:17-28: the value of RESET; RP2040_RESET_IO_QSPI, PADS_QSPI, PLL_SYS, PLL_USB, SYSCFG, USBCTRL -/
def init : Word := ~~~(1#32 <<< 6 ||| 1#32 <<< 9 ||| 1#32 <<< 12 ||| 1#32 <<< 13 ||| 1#32 <<< 18 ||| 1#32 <<< 24) &&& 0x1fffffff#32

/-- rp2040_reset, misc-rp2040_reset.c:30-36, on RESET -/
def reset (ss : Nat) (r : Word) : Option Word := if ss < 25 then some (r ||| 1#32 <<< ss) else none

/-- the loop of rp2040_unreset, misc-rp2040_reset.c:47-50: `n`: deadlock, `i`: reads so far, `d i`: what read i of RESET_DONE gives; true: deadlock is not -1 after it -/
def wait (mask : Word) (d : Nat → Word) : Nat → Nat → Bool
  | n, i =>
    if d i &&& mask = 0 then (match n with | 0 => false | n + 1 => wait mask d n (i + 1)) else true

/-- rp2040_unreset, misc-rp2040_reset.c:38-52: RESET, and whether 0 is returned (-EBUSY otherwise); `limit`: CONFIG_DEADLOCK_COUNT -/
def unreset (limit : Nat) (d : Nat → Word) (ss : Nat) (r : Word) : Option (Word × Bool) := if ss < 25 then some (r &&& ~~~(1#32 <<< ss), wait (1#32 <<< ss) d limit 0) else none

end Rp
end Pico.MiscCfg
