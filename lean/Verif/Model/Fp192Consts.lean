import Verif.Model.Fp192Funcs

/-!
# Constants of 192-bit floating point numbers

Model of src/fp192/consts.rs 29-94.  `SQRT_2` and `LN_2` are in `Verif.Model.Fp192Funcs`.
-/

namespace Hmath
namespace F192

/-- src/fp192/consts.rs 30-33 -/
def PI : F192 := ⟨97115962555772455233232789574583590097, 281474976710530⟩
/-- src/fp192/consts.rs 35-38 -/
def PI_OVER_2 : F192 := ⟨97115962555772455233232789574583590097, 281474976710529⟩
/-- src/fp192/consts.rs 40-43 -/
def PI_OVER_3 : F192 := ⟨8030247217025226244926091811094358155, 281474976710529⟩
/-- src/fp192/consts.rs 45-48 -/
def PI_OVER_4 : F192 := ⟨97115962555772455233232789574583590097, 281474976710528⟩
/-- src/fp192/consts.rs 50-53 -/
def PI_OVER_6 : F192 := ⟨8030247217025226244926091811094358155, 281474976710528⟩
/-- src/fp192/consts.rs 55-58 -/
def E : F192 := ⟨61104660176085852556040455244950093042, 281474976710530⟩
/-- src/fp192/consts.rs 65-68 -/
def SQRT_3 : F192 := ⟨124551990752961009652400151969882971589, 281474976710529⟩
/-- src/fp192/consts.rs 70-73 -/
def SQRT_10 : F192 := ⟨98875648305356569987839135600239050579, 281474976710530⟩
/-- src/fp192/consts.rs 75-78 -/
def ONE_OVER_SQRT_2 : F192 := ⟨70474785707535279813346468761740951199, 281474976710528⟩
/-- src/fp192/consts.rs 85-88 -/
def LN_3 : F192 := ⟨16778011497737602070059788614351306331, 281474976710529⟩
/-- src/fp192/consts.rs 90-93 -/
def LN_10 : F192 := ⟨25741092909751534969647316959977736745, 281474976710530⟩

end F192
end Hmath
