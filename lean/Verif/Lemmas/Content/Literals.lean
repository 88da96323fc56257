import Verif.Base.Bytes
/- The bytes of the literals of content streams (generated by tools/genlits.py). -/
namespace Verif.Content

@[simp] theorem lit_0 : lit "/GS" = [47, 71, 83] := by decide +kernel
@[simp] theorem lit_1 : lit " gs\n" = [32, 103, 115, 10] := by decide +kernel
@[simp] theorem lit_2 : lit "S" = [83] := by decide +kernel
@[simp] theorem lit_3 : lit "f" = [102] := by decide +kernel
@[simp] theorem lit_4 : lit "B" = [66] := by decide +kernel
@[simp] theorem lit_5 : lit " s\n" = [32, 115, 10] := by decide +kernel
@[simp] theorem lit_6 : lit " f\n" = [32, 102, 10] := by decide +kernel
@[simp] theorem lit_7 : lit " b\n" = [32, 98, 10] := by decide +kernel
@[simp] theorem lit_8 : lit " m " = [32, 109, 32] := by decide +kernel
@[simp] theorem lit_9 : lit " l " = [32, 108, 32] := by decide +kernel
@[simp] theorem lit_10 : lit "\n" = [10] := by decide +kernel
@[simp] theorem lit_11 : lit " re" = [32, 114, 101] := by decide +kernel
@[simp] theorem lit_12 : lit " l s\n" = [32, 108, 32, 115, 10] := by decide +kernel
@[simp] theorem lit_13 : lit "q\n" = [113, 10] := by decide +kernel
@[simp] theorem lit_14 : lit "BT\n" = [66, 84, 10] := by decide +kernel
@[simp] theorem lit_15 : lit " TD\n" = [32, 84, 68, 10] := by decide +kernel
@[simp] theorem lit_16 : lit "/F" = [47, 70] := by decide +kernel
@[simp] theorem lit_17 : lit " Tf " = [32, 84, 102, 32] := by decide +kernel
@[simp] theorem lit_18 : lit " Tc\n" = [32, 84, 99, 10] := by decide +kernel
@[simp] theorem lit_19 : lit "ET\n" = [69, 84, 10] := by decide +kernel
@[simp] theorem lit_20 : lit "Q\n" = [81, 10] := by decide +kernel
@[simp] theorem lit_21 : lit "\n " = [10, 32] := by decide +kernel
@[simp] theorem lit_22 : lit " cm\n 1 0 0\n 1 " = [32, 99, 109, 10, 32, 49, 32, 48, 32, 48, 10, 32, 49, 32] := by decide +kernel
@[simp] theorem lit_23 : lit " cm\n" = [32, 99, 109, 10] := by decide +kernel
@[simp] theorem lit_24 : lit "-1" = [45, 49] := by decide +kernel
@[simp] theorem lit_25 : lit "1" = [49] := by decide +kernel
@[simp] theorem lit_26 : lit " 0 0 " = [32, 48, 32, 48, 32] := by decide +kernel
@[simp] theorem lit_27 : lit " 0 0 cm\n" = [32, 48, 32, 48, 32, 99, 109, 10] := by decide +kernel
@[simp] theorem lit_28 : lit " W* n\n" = [32, 87, 42, 32, 110, 10] := by decide +kernel
@[simp] theorem lit_29 : lit "q\n " = [113, 10, 32] := by decide +kernel
@[simp] theorem lit_30 : lit " 0 0\n " = [32, 48, 32, 48, 10, 32] := by decide +kernel
@[simp] theorem lit_31 : lit " cm /I" = [32, 99, 109, 32, 47, 73] := by decide +kernel
@[simp] theorem lit_32 : lit " Do \nQ\n" = [32, 68, 111, 32, 10, 81, 10] := by decide +kernel
@[simp] theorem lit_33 : lit " c" = [32, 99] := by decide +kernel
@[simp] theorem lit_34 : lit "[]" = [91, 93] := by decide +kernel
@[simp] theorem lit_35 : lit "[" = [91] := by decide +kernel
@[simp] theorem lit_36 : lit "]" = [93] := by decide +kernel
@[simp] theorem lit_37 : lit "[5] 2 d\n" = [91, 53, 93, 32, 50, 32, 100, 10] := by decide +kernel
@[simp] theorem lit_38 : lit "[2 3] 11 d\n" = [91, 50, 32, 51, 93, 32, 49, 49, 32, 100, 10] := by decide +kernel
@[simp] theorem lit_39 : lit "[] 0 d\n" = [91, 93, 32, 48, 32, 100, 10] := by decide +kernel
@[simp] theorem lit_40 : lit " l S\n" = [32, 108, 32, 83, 10] := by decide +kernel
@[simp] theorem lit_41 : lit " m\n" = [32, 109, 10] := by decide +kernel
@[simp] theorem lit_42 : lit " S\n" = [32, 83, 10] := by decide +kernel
@[simp] theorem lit_43 : lit "h W n\n" = [104, 32, 87, 32, 110, 10] := by decide +kernel
@[simp] theorem lit_44 : lit "q 0 J 1 w 0 j 0 G 0 g q " = [113, 32, 48, 32, 74, 32, 49, 32, 119, 32, 48, 32, 106, 32, 48, 32, 71, 32, 48, 32, 103, 32, 113, 32] := by decide +kernel
@[simp] theorem lit_45 : lit " cm " = [32, 99, 109, 32] := by decide +kernel
@[simp] theorem lit_46 : lit " Do Q Q\n" = [32, 68, 111, 32, 81, 32, 81, 10] := by decide +kernel
@[simp] theorem lit_47 : lit "G" = [71] := by decide +kernel
@[simp] theorem lit_48 : lit "g" = [103] := by decide +kernel
@[simp] theorem lit_49 : lit " w\n" = [32, 119, 10] := by decide +kernel
@[simp] theorem lit_50 : lit " d\n" = [32, 100, 10] := by decide +kernel
@[simp] theorem lit_51 : lit "/CS" = [47, 67, 83] := by decide +kernel
@[simp] theorem lit_52 : lit " CS 1.0000 SCN\n" = [32, 67, 83, 32, 49, 46, 48, 48, 48, 48, 32, 83, 67, 78, 10] := by decide +kernel
@[simp] theorem lit_53 : lit "q" = [113] := by decide +kernel
@[simp] theorem lit_54 : lit "Q" = [81] := by decide +kernel
@[simp] theorem lit_55 : lit "h" = [104] := by decide +kernel
@[simp] theorem lit_56 : lit "n" = [110] := by decide +kernel
@[simp] theorem lit_57 : lit "W" = [87] := by decide +kernel
@[simp] theorem lit_58 : lit "W*" = [87, 42] := by decide +kernel
@[simp] theorem lit_59 : lit "BT" = [66, 84] := by decide +kernel
@[simp] theorem lit_60 : lit "ET" = [69, 84] := by decide +kernel
@[simp] theorem lit_61 : lit "w" = [119] := by decide +kernel
@[simp] theorem lit_62 : lit "Tc" = [84, 99] := by decide +kernel
@[simp] theorem lit_63 : lit "J" = [74] := by decide +kernel
@[simp] theorem lit_64 : lit "j" = [106] := by decide +kernel
@[simp] theorem lit_65 : lit "SCN" = [83, 67, 78] := by decide +kernel
@[simp] theorem lit_66 : lit "m" = [109] := by decide +kernel
@[simp] theorem lit_67 : lit "l" = [108] := by decide +kernel
@[simp] theorem lit_68 : lit "Td" = [84, 100] := by decide +kernel
@[simp] theorem lit_69 : lit "TD" = [84, 68] := by decide +kernel
@[simp] theorem lit_70 : lit "rg" = [114, 103] := by decide +kernel
@[simp] theorem lit_71 : lit "RG" = [82, 71] := by decide +kernel
@[simp] theorem lit_72 : lit "re" = [114, 101] := by decide +kernel
@[simp] theorem lit_73 : lit "k" = [107] := by decide +kernel
@[simp] theorem lit_74 : lit "K" = [75] := by decide +kernel
@[simp] theorem lit_75 : lit "cm" = [99, 109] := by decide +kernel
@[simp] theorem lit_76 : lit "c" = [99] := by decide +kernel
@[simp] theorem lit_77 : lit "gs" = [103, 115] := by decide +kernel
@[simp] theorem lit_78 : lit "GS" = [71, 83] := by decide +kernel
@[simp] theorem lit_79 : lit "CS" = [67, 83] := by decide +kernel
@[simp] theorem lit_80 : lit "Do" = [68, 111] := by decide +kernel
@[simp] theorem lit_81 : lit "I" = [73] := by decide +kernel
@[simp] theorem lit_82 : lit "Tf" = [84, 102] := by decide +kernel
@[simp] theorem lit_83 : lit "F" = [70] := by decide +kernel
@[simp] theorem lit_84 : lit "TJ" = [84, 74] := by decide +kernel
@[simp] theorem lit_85 : lit "d" = [100] := by decide +kernel
@[simp] theorem lit_86 : lit "[<" = [91, 60] := by decide +kernel
@[simp] theorem lit_87 : lit ">] TJ\n" = [62, 93, 32, 84, 74, 10] := by decide +kernel

end Verif.Content
