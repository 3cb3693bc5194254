import Verif.Spec.Flags
import Verif.Model.Basic
/-!
# Model: conversions of BLAS flags

`rstsr_invalid!(..).unwrap()` is a panic. A `c_char` is an integer from -128 to 127. The enumerations of the crate
`rstsr-cblas-base` are given by the names of their variants, `CBLAS_TRANSPOSE` having three.
-/
namespace Rstsr
open Spec

/-- `val as u8` of a `c_char`. -/
def byteOf (v : Int) : Int := v % 256

/-- `rstsr-common/src/flags.rs:269-278` `From<char> for FlagTrans`. -/
def transOfChar : Char → Res TransFlag
  | 'N' | 'n' => .ok .N
  | 'T' | 't' => .ok .T
  | 'C' | 'c' => .ok .C
  | _ => .error .panic

/-- `flags.rs:280-289` `From<FlagTrans> for char`. -/
def transToChar : TransFlag → Res Char
  | .N => .ok 'N'
  | .T => .ok 'T'
  | .C => .ok 'C'
  | .CN => .error .panic

/-- `flags.rs:291-300` `From<FlagTrans> for c_char`. -/
def transToByte : TransFlag → Res Int
  | .N => .ok 78
  | .T => .ok 84
  | .C => .ok 67
  | .CN => .error .panic

/-- `flags.rs:302-311` `From<c_char> for FlagTrans`. -/
def transOfByte (v : Int) : Res TransFlag :=
  if byteOf v = 78 then .ok .N else if byteOf v = 84 then .ok .T else if byteOf v = 67 then .ok .C else .error .panic

/-- The three variants of `CBLAS_TRANSPOSE`. -/
inductive CblasTrans | noTrans | trans | conjTrans
  deriving DecidableEq, Repr

/-- `flags.rs:313-321` `From<CBLAS_TRANSPOSE> for FlagTrans`. -/
def transOfCblas : CblasTrans → TransFlag
  | .noTrans => .N
  | .trans => .T
  | .conjTrans => .C

/-- `flags.rs:323-332` `From<FlagTrans> for CBLAS_TRANSPOSE`. -/
def transToCblas : TransFlag → Res CblasTrans
  | .N => .ok .noTrans
  | .T => .ok .trans
  | .C => .ok .conjTrans
  | .CN => .error .panic

/-- `rstsr-blas-traits/src/cblas_flags.rs:12-19`, `54-63` `From<FlagTrans> for CblasTranspose`: the discriminant. -/
def transNumber : TransFlag → Res Nat
  | .N => .ok 111
  | .T => .ok 112
  | .C => .ok 113
  | .CN => .error .panic

/-- `flags.rs:334-342` `From<char> for FlagDiag`. -/
def diagOfChar : Char → Res Diag
  | 'N' | 'n' => .ok .nonUnit
  | 'U' | 'u' => .ok .unit
  | _ => .error .panic

/-- `flags.rs:344-351` `From<FlagDiag> for char`. -/
def diagToChar : Diag → Res Char
  | .nonUnit => .ok 'N'
  | .unit => .ok 'U'

/-- `flags.rs:353-360` `From<FlagDiag> for c_char`. -/
def diagToByte : Diag → Res Int
  | .nonUnit => .ok 78
  | .unit => .ok 85

/-- `flags.rs:362-370` `From<c_char> for FlagDiag`. -/
def diagOfByte (v : Int) : Res Diag :=
  if byteOf v = 78 then .ok .nonUnit else if byteOf v = 85 then .ok .unit else .error .panic

/-- `cblas_flags.rs:28-33`, `74-81` `From<FlagDiag> for CblasDiag`: the discriminant. -/
def diagNumber : Diag → Res Nat
  | .unit => .ok 132
  | .nonUnit => .ok 131

/-- `flags.rs:390-398` `From<char> for FlagSide`. -/
def sideOfChar : Char → Res Side
  | 'L' | 'l' => .ok .L
  | 'R' | 'r' => .ok .R
  | _ => .error .panic

/-- `flags.rs:400-407` `From<FlagSide> for char`. -/
def sideToChar : Side → Res Char
  | .L => .ok 'L'
  | .R => .ok 'R'

/-- `flags.rs:409-416` `From<FlagSide> for c_char`. -/
def sideToByte : Side → Res Int
  | .L => .ok 76
  | .R => .ok 82

/-- `flags.rs:418-426` `From<c_char> for FlagSide`. -/
def sideOfByte (v : Int) : Res Side :=
  if byteOf v = 76 then .ok .L else if byteOf v = 82 then .ok .R else .error .panic

/-- `cblas_flags.rs:35-40`, `83-90` `From<FlagSide> for CblasSide`: the discriminant. -/
def sideNumber : Side → Res Nat
  | .L => .ok 141
  | .R => .ok 142

/-- `flags.rs:446-454` `From<char> for FlagUpLo`. -/
def uploOfChar : Char → Res UpLo
  | 'U' | 'u' => .ok .U
  | 'L' | 'l' => .ok .L
  | _ => .error .panic

/-- `flags.rs:456-463` `From<FlagUpLo> for char`. -/
def uploToChar : UpLo → Res Char
  | .U => .ok 'U'
  | .L => .ok 'L'

/-- `flags.rs:465-472` `From<FlagUpLo> for c_char`. -/
def uploToByte : UpLo → Res Int
  | .U => .ok 85
  | .L => .ok 76

/-- `flags.rs:474-482` `From<c_char> for FlagUpLo`. -/
def uploOfByte (v : Int) : Res UpLo :=
  if byteOf v = 85 then .ok .U else if byteOf v = 76 then .ok .L else .error .panic

/-- `cblas_flags.rs:21-26`, `65-72` `From<FlagUpLo> for CblasUplo`: the discriminant. -/
def uploNumber : UpLo → Res Nat
  | .U => .ok 121
  | .L => .ok 122

/-- `cblas_flags.rs:3-8`, `92-99` `From<FlagOrder> for CblasLayout`: the discriminant. -/
def orderNumber : Order → Res Nat
  | .C => .ok 101
  | .F => .ok 102

/-- `flags.rs:533-545` `FlagTrans::flip`. -/
def flipFlag : TransFlag → Bool → Res TransFlag
  | .N, true => .ok .C
  | .N, false => .ok .T
  | .T, _ => .ok .N
  | .C, _ => .ok .N
  | .CN, _ => .error .invalidValue

/-- `flags.rs:524-531` `FlagOrder::flip`. -/
def flipOrder : Order → Order
  | .C => .F
  | .F => .C

end Rstsr
