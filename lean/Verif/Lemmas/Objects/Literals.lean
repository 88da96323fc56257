import Verif.Lemmas.Objects.Run
/- Generated by tools/literals.py: reading the literal texts of Model/Objects.lean and Model/Streams.lean. -/
namespace Verif.PdfObject

theorem lex_1 : feedAll .gap (lit "DeviceGray") = some ([], .word (lit "DeviceGray")) := by decide +kernel
theorem lex_2 : feedAll .gap (lit "DeviceRGB") = some ([], .word (lit "DeviceRGB")) := by decide +kernel
theorem lex_3 : feedAll .gap (lit "DeviceCMYK") = some ([], .word (lit "DeviceCMYK")) := by decide +kernel
theorem lex_4 : feedAll .gap (lit " 0 R") = some ([.word (lit "0")], .word (lit "R")) := by decide +kernel
theorem starts_4 : Starts (lit " 0 R") = true := by decide +kernel
theorem starts_4_ (b : Bytes) : Starts (lit " 0 R" ++ b) = true := starts_append starts_4
theorem lex_5 : feedAll .gap (lit "<<\n") = some ([.dictOpen], .gap) := by decide +kernel
theorem starts_5 : Starts (lit "<<\n") = true := by decide +kernel
theorem starts_5_ (b : Bytes) : Starts (lit "<<\n" ++ b) = true := starts_append starts_5
theorem lex_6 : feedAll .gap (lit "  /Type /Catalog\n") = some ([.name (lit "Type"), .name (lit "Catalog")], .gap) := by decide +kernel
theorem starts_6 : Starts (lit "  /Type /Catalog\n") = true := by decide +kernel
theorem starts_6_ (b : Bytes) : Starts (lit "  /Type /Catalog\n" ++ b) = true := starts_append starts_6
theorem lex_7 : feedAll .gap (lit "  /Pages 2 0 R\n") = some ([.name (lit "Pages"), .word (lit "2"), .word (lit "0"), .word (lit "R")], .gap) := by decide +kernel
theorem starts_7 : Starts (lit "  /Pages 2 0 R\n") = true := by decide +kernel
theorem starts_7_ (b : Bytes) : Starts (lit "  /Pages 2 0 R\n" ++ b) = true := starts_append starts_7
theorem lex_8 : feedAll .gap (lit "  /PageMode /UseOutlines\n") = some ([.name (lit "PageMode"), .name (lit "UseOutlines")], .gap) := by decide +kernel
theorem starts_8 : Starts (lit "  /PageMode /UseOutlines\n") = true := by decide +kernel
theorem starts_8_ (b : Bytes) : Starts (lit "  /PageMode /UseOutlines\n" ++ b) = true := starts_append starts_8
theorem lex_9 : feedAll .gap (lit "  /Outlines ") = some ([.name (lit "Outlines")], .gap) := by decide +kernel
theorem starts_9 : Starts (lit "  /Outlines ") = true := by decide +kernel
theorem starts_9_ (b : Bytes) : Starts (lit "  /Outlines " ++ b) = true := starts_append starts_9
theorem lex_10 : feedAll .gap (lit "\n") = some ([], .gap) := by decide +kernel
theorem starts_10 : Starts (lit "\n") = true := by decide +kernel
theorem starts_10_ (b : Bytes) : Starts (lit "\n" ++ b) = true := starts_append starts_10
theorem lex_11 : feedAll .gap (lit ">>\n") = some ([.dictClose], .gap) := by decide +kernel
theorem starts_11 : Starts (lit ">>\n") = true := by decide +kernel
theorem starts_11_ (b : Bytes) : Starts (lit ">>\n" ++ b) = true := starts_append starts_11
theorem lex_12 : feedAll .gap (lit " ") = some ([], .gap) := by decide +kernel
theorem starts_12 : Starts (lit " ") = true := by decide +kernel
theorem starts_12_ (b : Bytes) : Starts (lit " " ++ b) = true := starts_append starts_12
theorem lex_13 : feedAll .gap (lit "  /Type /Pages\n") = some ([.name (lit "Type"), .name (lit "Pages")], .gap) := by decide +kernel
theorem starts_13 : Starts (lit "  /Type /Pages\n") = true := by decide +kernel
theorem starts_13_ (b : Bytes) : Starts (lit "  /Type /Pages\n" ++ b) = true := starts_append starts_13
theorem lex_14 : feedAll .gap (lit "  /MediaBox [ 0 0 ") = some ([.name (lit "MediaBox"), .arrOpen, .word (lit "0"), .word (lit "0")], .gap) := by decide +kernel
theorem starts_14 : Starts (lit "  /MediaBox [ 0 0 ") = true := by decide +kernel
theorem starts_14_ (b : Bytes) : Starts (lit "  /MediaBox [ 0 0 " ++ b) = true := starts_append starts_14
theorem lex_15 : feedAll .gap (lit " ]\n") = some ([.arrClose], .gap) := by decide +kernel
theorem starts_15 : Starts (lit " ]\n") = true := by decide +kernel
theorem starts_15_ (b : Bytes) : Starts (lit " ]\n" ++ b) = true := starts_append starts_15
theorem lex_16 : feedAll .gap (lit "  /Count ") = some ([.name (lit "Count")], .gap) := by decide +kernel
theorem starts_16 : Starts (lit "  /Count ") = true := by decide +kernel
theorem starts_16_ (b : Bytes) : Starts (lit "  /Count " ++ b) = true := starts_append starts_16
theorem lex_17 : feedAll .gap (lit "  /Kids [ ") = some ([.name (lit "Kids"), .arrOpen], .gap) := by decide +kernel
theorem starts_17 : Starts (lit "  /Kids [ ") = true := by decide +kernel
theorem starts_17_ (b : Bytes) : Starts (lit "  /Kids [ " ++ b) = true := starts_append starts_17
theorem lex_18 : feedAll .gap (lit "  /Annots [") = some ([.name (lit "Annots"), .arrOpen], .gap) := by decide +kernel
theorem starts_18 : Starts (lit "  /Annots [") = true := by decide +kernel
theorem starts_18_ (b : Bytes) : Starts (lit "  /Annots [" ++ b) = true := starts_append starts_18
theorem lex_19 : feedAll .gap (lit "]\n") = some ([.arrClose], .gap) := by decide +kernel
theorem starts_19 : Starts (lit "]\n") = true := by decide +kernel
theorem starts_19_ (b : Bytes) : Starts (lit "]\n" ++ b) = true := starts_append starts_19
theorem lex_20 : feedAll .gap (lit "  /Contents ") = some ([.name (lit "Contents")], .gap) := by decide +kernel
theorem starts_20 : Starts (lit "  /Contents ") = true := by decide +kernel
theorem starts_20_ (b : Bytes) : Starts (lit "  /Contents " ++ b) = true := starts_append starts_20
theorem lex_21 : feedAll .gap (lit " /MediaBox [ 0 0 ") = some ([.name (lit "MediaBox"), .arrOpen, .word (lit "0"), .word (lit "0")], .gap) := by decide +kernel
theorem starts_21 : Starts (lit " /MediaBox [ 0 0 ") = true := by decide +kernel
theorem starts_21_ (b : Bytes) : Starts (lit " /MediaBox [ 0 0 " ++ b) = true := starts_append starts_21
theorem lex_22 : feedAll .gap (lit " /TrimBox [ ") = some ([.name (lit "TrimBox"), .arrOpen], .gap) := by decide +kernel
theorem starts_22 : Starts (lit " /TrimBox [ ") = true := by decide +kernel
theorem starts_22_ (b : Bytes) : Starts (lit " /TrimBox [ " ++ b) = true := starts_append starts_22
theorem lex_23 : feedAll .gap (lit "  /Type /Page\n") = some ([.name (lit "Type"), .name (lit "Page")], .gap) := by decide +kernel
theorem starts_23 : Starts (lit "  /Type /Page\n") = true := by decide +kernel
theorem starts_23_ (b : Bytes) : Starts (lit "  /Type /Page\n" ++ b) = true := starts_append starts_23
theorem lex_24 : feedAll .gap (lit "  /Parent 2 0 R\n") = some ([.name (lit "Parent"), .word (lit "2"), .word (lit "0"), .word (lit "R")], .gap) := by decide +kernel
theorem starts_24 : Starts (lit "  /Parent 2 0 R\n") = true := by decide +kernel
theorem starts_24_ (b : Bytes) : Starts (lit "  /Parent 2 0 R\n" ++ b) = true := starts_append starts_24
theorem lex_25 : feedAll .gap (lit "  /Resources ") = some ([.name (lit "Resources")], .gap) := by decide +kernel
theorem starts_25 : Starts (lit "  /Resources ") = true := by decide +kernel
theorem starts_25_ (b : Bytes) : Starts (lit "  /Resources " ++ b) = true := starts_append starts_25
theorem lex_26 : feedAll .gap (lit "\t/Type /Outlines\n") = some ([.name (lit "Type"), .name (lit "Outlines")], .gap) := by decide +kernel
theorem starts_26 : Starts (lit "\t/Type /Outlines\n") = true := by decide +kernel
theorem starts_26_ (b : Bytes) : Starts (lit "\t/Type /Outlines\n" ++ b) = true := starts_append starts_26
theorem lex_27 : feedAll .gap (lit "\t/Count ") = some ([.name (lit "Count")], .gap) := by decide +kernel
theorem starts_27 : Starts (lit "\t/Count ") = true := by decide +kernel
theorem starts_27_ (b : Bytes) : Starts (lit "\t/Count " ++ b) = true := starts_append starts_27
theorem lex_28 : feedAll .gap (lit "\t/First ") = some ([.name (lit "First")], .gap) := by decide +kernel
theorem starts_28 : Starts (lit "\t/First ") = true := by decide +kernel
theorem starts_28_ (b : Bytes) : Starts (lit "\t/First " ++ b) = true := starts_append starts_28
theorem lex_29 : feedAll .gap (lit "\t/Last ") = some ([.name (lit "Last")], .gap) := by decide +kernel
theorem starts_29 : Starts (lit "\t/Last ") = true := by decide +kernel
theorem starts_29_ (b : Bytes) : Starts (lit "\t/Last " ++ b) = true := starts_append starts_29
theorem lex_30 : feedAll .gap (lit "  /Parent ") = some ([.name (lit "Parent")], .gap) := by decide +kernel
theorem starts_30 : Starts (lit "  /Parent ") = true := by decide +kernel
theorem starts_30_ (b : Bytes) : Starts (lit "  /Parent " ++ b) = true := starts_append starts_30
theorem lex_31 : feedAll .gap (lit "  /Prev ") = some ([.name (lit "Prev")], .gap) := by decide +kernel
theorem starts_31 : Starts (lit "  /Prev ") = true := by decide +kernel
theorem starts_31_ (b : Bytes) : Starts (lit "  /Prev " ++ b) = true := starts_append starts_31
theorem lex_32 : feedAll .gap (lit "  /Next ") = some ([.name (lit "Next")], .gap) := by decide +kernel
theorem starts_32 : Starts (lit "  /Next ") = true := by decide +kernel
theorem starts_32_ (b : Bytes) : Starts (lit "  /Next " ++ b) = true := starts_append starts_32
theorem lex_33 : feedAll .gap (lit "  /Dest [ ") = some ([.name (lit "Dest"), .arrOpen], .gap) := by decide +kernel
theorem starts_33 : Starts (lit "  /Dest [ ") = true := by decide +kernel
theorem starts_33_ (b : Bytes) : Starts (lit "  /Dest [ " ++ b) = true := starts_append starts_33
theorem lex_34 : feedAll .gap (lit " /XYZ 90 ") = some ([.name (lit "XYZ"), .word (lit "90")], .gap) := by decide +kernel
theorem starts_34 : Starts (lit " /XYZ 90 ") = true := by decide +kernel
theorem starts_34_ (b : Bytes) : Starts (lit " /XYZ 90 " ++ b) = true := starts_append starts_34
theorem lex_35 : feedAll .gap (lit " 0 ]\n") = some ([.word (lit "0"), .arrClose], .gap) := by decide +kernel
theorem starts_35 : Starts (lit " 0 ]\n") = true := by decide +kernel
theorem starts_35_ (b : Bytes) : Starts (lit " 0 ]\n" ++ b) = true := starts_append starts_35
theorem lex_36 : feedAll .gap (lit "  /Title <FEFF") = some ([.name (lit "Title")], .hex (lit "FEFF")) := by decide +kernel
theorem starts_36 : Starts (lit "  /Title <FEFF") = true := by decide +kernel
theorem starts_36_ (b : Bytes) : Starts (lit "  /Title <FEFF" ++ b) = true := starts_append starts_36
-- not read from a gap: lit ">\n"
theorem lex_37 : feedAll .gap (lit "\t\t/") = some ([], .name ([])) := by decide +kernel
theorem starts_37 : Starts (lit "\t\t/") = true := by decide +kernel
theorem starts_37_ (b : Bytes) : Starts (lit "\t\t/" ++ b) = true := starts_append starts_37
theorem lex_38 : feedAll .gap (lit "\t\t") = some ([], .gap) := by decide +kernel
theorem starts_38 : Starts (lit "\t\t") = true := by decide +kernel
theorem starts_38_ (b : Bytes) : Starts (lit "\t\t" ++ b) = true := starts_append starts_38
theorem lex_39 : feedAll .gap (lit "\t/ProcSet [/PDF /Text /ImageB /ImageC /ImageI]\n") = some ([.name (lit "ProcSet"), .arrOpen, .name (lit "PDF"), .name (lit "Text"), .name (lit "ImageB"), .name (lit "ImageC"), .name (lit "ImageI"), .arrClose], .gap) := by decide +kernel
theorem starts_39 : Starts (lit "\t/ProcSet [/PDF /Text /ImageB /ImageC /ImageI]\n") = true := by decide +kernel
theorem starts_39_ (b : Bytes) : Starts (lit "\t/ProcSet [/PDF /Text /ImageB /ImageC /ImageI]\n" ++ b) = true := starts_append starts_39
theorem lex_40 : feedAll .gap (lit "\t/Font <<\n") = some ([.name (lit "Font"), .dictOpen], .gap) := by decide +kernel
theorem starts_40 : Starts (lit "\t/Font <<\n") = true := by decide +kernel
theorem starts_40_ (b : Bytes) : Starts (lit "\t/Font <<\n" ++ b) = true := starts_append starts_40
theorem lex_41 : feedAll .gap (lit "\t>>\n") = some ([.dictClose], .gap) := by decide +kernel
theorem starts_41 : Starts (lit "\t>>\n") = true := by decide +kernel
theorem starts_41_ (b : Bytes) : Starts (lit "\t>>\n" ++ b) = true := starts_append starts_41
theorem lex_42 : feedAll .gap (lit "\t/ColorSpace <<\n") = some ([.name (lit "ColorSpace"), .dictOpen], .gap) := by decide +kernel
theorem starts_42 : Starts (lit "\t/ColorSpace <<\n") = true := by decide +kernel
theorem starts_42_ (b : Bytes) : Starts (lit "\t/ColorSpace <<\n" ++ b) = true := starts_append starts_42
theorem lex_43 : feedAll .gap (lit "\t/XObject <<\n") = some ([.name (lit "XObject"), .dictOpen], .gap) := by decide +kernel
theorem starts_43 : Starts (lit "\t/XObject <<\n") = true := by decide +kernel
theorem starts_43_ (b : Bytes) : Starts (lit "\t/XObject <<\n" ++ b) = true := starts_append starts_43
theorem lex_44 : feedAll .gap (lit "\t/ExtGState <<\n") = some ([.name (lit "ExtGState"), .dictOpen], .gap) := by decide +kernel
theorem starts_44 : Starts (lit "\t/ExtGState <<\n") = true := by decide +kernel
theorem starts_44_ (b : Bytes) : Starts (lit "\t/ExtGState <<\n" ++ b) = true := starts_append starts_44
theorem lex_45 : feedAll .gap (lit "/BaseFont /") = some ([.name (lit "BaseFont")], .name ([])) := by decide +kernel
theorem starts_45 : Starts (lit "/BaseFont /") = true := by decide +kernel
theorem starts_45_ (b : Bytes) : Starts (lit "/BaseFont /" ++ b) = true := starts_append starts_45
theorem lex_46 : feedAll .gap (lit "/DescendantFonts [") = some ([.name (lit "DescendantFonts"), .arrOpen], .gap) := by decide +kernel
theorem starts_46 : Starts (lit "/DescendantFonts [") = true := by decide +kernel
theorem starts_46_ (b : Bytes) : Starts (lit "/DescendantFonts [" ++ b) = true := starts_append starts_46
theorem lex_47 : feedAll .gap (lit "/Encoding /Identity-H\n") = some ([.name (lit "Encoding"), .name (lit "Identity-H")], .gap) := by decide +kernel
theorem starts_47 : Starts (lit "/Encoding /Identity-H\n") = true := by decide +kernel
theorem starts_47_ (b : Bytes) : Starts (lit "/Encoding /Identity-H\n" ++ b) = true := starts_append starts_47
theorem lex_48 : feedAll .gap (lit "/Subtype /Type0\n") = some ([.name (lit "Subtype"), .name (lit "Type0")], .gap) := by decide +kernel
theorem starts_48 : Starts (lit "/Subtype /Type0\n") = true := by decide +kernel
theorem starts_48_ (b : Bytes) : Starts (lit "/Subtype /Type0\n" ++ b) = true := starts_append starts_48
theorem lex_49 : feedAll .gap (lit "/ToUnicode ") = some ([.name (lit "ToUnicode")], .gap) := by decide +kernel
theorem starts_49 : Starts (lit "/ToUnicode ") = true := by decide +kernel
theorem starts_49_ (b : Bytes) : Starts (lit "/ToUnicode " ++ b) = true := starts_append starts_49
theorem lex_50 : feedAll .gap (lit "/Type /Font\n") = some ([.name (lit "Type"), .name (lit "Font")], .gap) := by decide +kernel
theorem starts_50 : Starts (lit "/Type /Font\n") = true := by decide +kernel
theorem starts_50_ (b : Bytes) : Starts (lit "/Type /Font\n" ++ b) = true := starts_append starts_50
theorem lex_51 : feedAll .gap (lit "[") = some ([.arrOpen], .gap) := by decide +kernel
theorem starts_51 : Starts (lit "[") = true := by decide +kernel
theorem starts_51_ (b : Bytes) : Starts (lit "[" ++ b) = true := starts_append starts_51
theorem lex_52 : feedAll .gap (lit "]") = some ([.arrClose], .gap) := by decide +kernel
theorem starts_52 : Starts (lit "]") = true := by decide +kernel
theorem starts_52_ (b : Bytes) : Starts (lit "]" ++ b) = true := starts_append starts_52
theorem lex_53 : feedAll .gap (lit "/CIDSystemInfo\n") = some ([.name (lit "CIDSystemInfo")], .gap) := by decide +kernel
theorem starts_53 : Starts (lit "/CIDSystemInfo\n") = true := by decide +kernel
theorem starts_53_ (b : Bytes) : Starts (lit "/CIDSystemInfo\n" ++ b) = true := starts_append starts_53
theorem lex_54 : feedAll .gap (lit "  /Ordering (Identity)\n") = some ([.name (lit "Ordering"), .str (lit "Identity")], .gap) := by decide +kernel
theorem starts_54 : Starts (lit "  /Ordering (Identity)\n") = true := by decide +kernel
theorem starts_54_ (b : Bytes) : Starts (lit "  /Ordering (Identity)\n" ++ b) = true := starts_append starts_54
theorem lex_55 : feedAll .gap (lit "  /Registry (Adobe)\n") = some ([.name (lit "Registry"), .str (lit "Adobe")], .gap) := by decide +kernel
theorem starts_55 : Starts (lit "  /Registry (Adobe)\n") = true := by decide +kernel
theorem starts_55_ (b : Bytes) : Starts (lit "  /Registry (Adobe)\n" ++ b) = true := starts_append starts_55
theorem lex_56 : feedAll .gap (lit "  /Supplement 0\n") = some ([.name (lit "Supplement"), .word (lit "0")], .gap) := by decide +kernel
theorem starts_56 : Starts (lit "  /Supplement 0\n") = true := by decide +kernel
theorem starts_56_ (b : Bytes) : Starts (lit "  /Supplement 0\n" ++ b) = true := starts_append starts_56
theorem lex_57 : feedAll .gap (lit "/FontDescriptor ") = some ([.name (lit "FontDescriptor")], .gap) := by decide +kernel
theorem starts_57 : Starts (lit "/FontDescriptor ") = true := by decide +kernel
theorem starts_57_ (b : Bytes) : Starts (lit "/FontDescriptor " ++ b) = true := starts_append starts_57
theorem lex_58 : feedAll .gap (lit "/Subtype /CIDFontType2\n") = some ([.name (lit "Subtype"), .name (lit "CIDFontType2")], .gap) := by decide +kernel
theorem starts_58 : Starts (lit "/Subtype /CIDFontType2\n") = true := by decide +kernel
theorem starts_58_ (b : Bytes) : Starts (lit "/Subtype /CIDFontType2\n" ++ b) = true := starts_append starts_58
theorem lex_59 : feedAll .gap (lit "/W [") = some ([.name (lit "W"), .arrOpen], .gap) := by decide +kernel
theorem starts_59 : Starts (lit "/W [") = true := by decide +kernel
theorem starts_59_ (b : Bytes) : Starts (lit "/W [" ++ b) = true := starts_append starts_59
theorem lex_60 : feedAll .gap (lit "/Type /FontDescriptor\n") = some ([.name (lit "Type"), .name (lit "FontDescriptor")], .gap) := by decide +kernel
theorem starts_60 : Starts (lit "/Type /FontDescriptor\n") = true := by decide +kernel
theorem starts_60_ (b : Bytes) : Starts (lit "/Type /FontDescriptor\n" ++ b) = true := starts_append starts_60
theorem lex_61 : feedAll .gap (lit "/Ascent ") = some ([.name (lit "Ascent")], .gap) := by decide +kernel
theorem starts_61 : Starts (lit "/Ascent ") = true := by decide +kernel
theorem starts_61_ (b : Bytes) : Starts (lit "/Ascent " ++ b) = true := starts_append starts_61
theorem lex_62 : feedAll .gap (lit "/CapHeight ") = some ([.name (lit "CapHeight")], .gap) := by decide +kernel
theorem starts_62 : Starts (lit "/CapHeight ") = true := by decide +kernel
theorem starts_62_ (b : Bytes) : Starts (lit "/CapHeight " ++ b) = true := starts_append starts_62
theorem lex_63 : feedAll .gap (lit "/Descent ") = some ([.name (lit "Descent")], .gap) := by decide +kernel
theorem starts_63 : Starts (lit "/Descent ") = true := by decide +kernel
theorem starts_63_ (b : Bytes) : Starts (lit "/Descent " ++ b) = true := starts_append starts_63
theorem lex_64 : feedAll .gap (lit "/Flags ") = some ([.name (lit "Flags")], .gap) := by decide +kernel
theorem starts_64 : Starts (lit "/Flags ") = true := by decide +kernel
theorem starts_64_ (b : Bytes) : Starts (lit "/Flags " ++ b) = true := starts_append starts_64
theorem lex_65 : feedAll .gap (lit "/FontBBox [") = some ([.name (lit "FontBBox"), .arrOpen], .gap) := by decide +kernel
theorem starts_65 : Starts (lit "/FontBBox [") = true := by decide +kernel
theorem starts_65_ (b : Bytes) : Starts (lit "/FontBBox [" ++ b) = true := starts_append starts_65
theorem lex_66 : feedAll .gap (lit "/FontFile2 ") = some ([.name (lit "FontFile2")], .gap) := by decide +kernel
theorem starts_66 : Starts (lit "/FontFile2 ") = true := by decide +kernel
theorem starts_66_ (b : Bytes) : Starts (lit "/FontFile2 " ++ b) = true := starts_append starts_66
theorem lex_67 : feedAll .gap (lit "/FontName /") = some ([.name (lit "FontName")], .name ([])) := by decide +kernel
theorem starts_67 : Starts (lit "/FontName /") = true := by decide +kernel
theorem starts_67_ (b : Bytes) : Starts (lit "/FontName /" ++ b) = true := starts_append starts_67
theorem lex_68 : feedAll .gap (lit "/ItalicAngle ") = some ([.name (lit "ItalicAngle")], .gap) := by decide +kernel
theorem starts_68 : Starts (lit "/ItalicAngle ") = true := by decide +kernel
theorem starts_68_ (b : Bytes) : Starts (lit "/ItalicAngle " ++ b) = true := starts_append starts_68
theorem lex_69 : feedAll .gap (lit "/StemV 0\n") = some ([.name (lit "StemV"), .word (lit "0")], .gap) := by decide +kernel
theorem starts_69 : Starts (lit "/StemV 0\n") = true := by decide +kernel
theorem starts_69_ (b : Bytes) : Starts (lit "/StemV 0\n" ++ b) = true := starts_append starts_69
theorem lex_70 : feedAll .gap (lit "/XHeight ") = some ([.name (lit "XHeight")], .gap) := by decide +kernel
theorem starts_70 : Starts (lit "/XHeight ") = true := by decide +kernel
theorem starts_70_ (b : Bytes) : Starts (lit "/XHeight " ++ b) = true := starts_append starts_70
theorem lex_71 : feedAll .gap (lit "DCTDecode") = some ([], .word (lit "DCTDecode")) := by decide +kernel
theorem lex_72 : feedAll .gap (lit "FlateDecode") = some ([], .word (lit "FlateDecode")) := by decide +kernel
theorem lex_73 : feedAll .gap (lit "\t/ColorSpace [/Indexed /DeviceRGB ") = some ([.name (lit "ColorSpace"), .arrOpen, .name (lit "Indexed"), .name (lit "DeviceRGB")], .gap) := by decide +kernel
theorem starts_73 : Starts (lit "\t/ColorSpace [/Indexed /DeviceRGB ") = true := by decide +kernel
theorem starts_73_ (b : Bytes) : Starts (lit "\t/ColorSpace [/Indexed /DeviceRGB " ++ b) = true := starts_append starts_73
theorem lex_74 : feedAll .gap (lit "\t/ColorSpace /") = some ([.name (lit "ColorSpace")], .name ([])) := by decide +kernel
theorem starts_74 : Starts (lit "\t/ColorSpace /") = true := by decide +kernel
theorem starts_74_ (b : Bytes) : Starts (lit "\t/ColorSpace /" ++ b) = true := starts_append starts_74
theorem lex_75 : feedAll .gap (lit "\t/Decode [1 0 1 0 1 0 1 0]\n") = some ([.name (lit "Decode"), .arrOpen, .word (lit "1"), .word (lit "0"), .word (lit "1"), .word (lit "0"), .word (lit "1"), .word (lit "0"), .word (lit "1"), .word (lit "0"), .arrClose], .gap) := by decide +kernel
theorem starts_75 : Starts (lit "\t/Decode [1 0 1 0 1 0 1 0]\n") = true := by decide +kernel
theorem starts_75_ (b : Bytes) : Starts (lit "\t/Decode [1 0 1 0 1 0 1 0]\n" ++ b) = true := starts_append starts_75
theorem lex_76 : feedAll .gap (lit "\t/Type /XObject\n") = some ([.name (lit "Type"), .name (lit "XObject")], .gap) := by decide +kernel
theorem starts_76 : Starts (lit "\t/Type /XObject\n") = true := by decide +kernel
theorem starts_76_ (b : Bytes) : Starts (lit "\t/Type /XObject\n" ++ b) = true := starts_append starts_76
theorem lex_77 : feedAll .gap (lit "\t/Subtype /Image\n") = some ([.name (lit "Subtype"), .name (lit "Image")], .gap) := by decide +kernel
theorem starts_77 : Starts (lit "\t/Subtype /Image\n") = true := by decide +kernel
theorem starts_77_ (b : Bytes) : Starts (lit "\t/Subtype /Image\n" ++ b) = true := starts_append starts_77
theorem lex_78 : feedAll .gap (lit "\t/Width ") = some ([.name (lit "Width")], .gap) := by decide +kernel
theorem starts_78 : Starts (lit "\t/Width ") = true := by decide +kernel
theorem starts_78_ (b : Bytes) : Starts (lit "\t/Width " ++ b) = true := starts_append starts_78
theorem lex_79 : feedAll .gap (lit "\t/Height ") = some ([.name (lit "Height")], .gap) := by decide +kernel
theorem starts_79 : Starts (lit "\t/Height ") = true := by decide +kernel
theorem starts_79_ (b : Bytes) : Starts (lit "\t/Height " ++ b) = true := starts_append starts_79
theorem lex_80 : feedAll .gap (lit "\t/BitsPerComponent ") = some ([.name (lit "BitsPerComponent")], .gap) := by decide +kernel
theorem starts_80 : Starts (lit "\t/BitsPerComponent ") = true := by decide +kernel
theorem starts_80_ (b : Bytes) : Starts (lit "\t/BitsPerComponent " ++ b) = true := starts_append starts_80
theorem lex_81 : feedAll .gap (lit "\t/Filter /") = some ([.name (lit "Filter")], .name ([])) := by decide +kernel
theorem starts_81 : Starts (lit "\t/Filter /") = true := by decide +kernel
theorem starts_81_ (b : Bytes) : Starts (lit "\t/Filter /" ++ b) = true := starts_append starts_81
theorem lex_82 : feedAll .gap (lit "\t/DecodeParms <<\n") = some ([.name (lit "DecodeParms"), .dictOpen], .gap) := by decide +kernel
theorem starts_82 : Starts (lit "\t/DecodeParms <<\n") = true := by decide +kernel
theorem starts_82_ (b : Bytes) : Starts (lit "\t/DecodeParms <<\n" ++ b) = true := starts_append starts_82
theorem lex_83 : feedAll .gap (lit "\t\t/Predictor 15\n") = some ([.name (lit "Predictor"), .word (lit "15")], .gap) := by decide +kernel
theorem starts_83 : Starts (lit "\t\t/Predictor 15\n") = true := by decide +kernel
theorem starts_83_ (b : Bytes) : Starts (lit "\t\t/Predictor 15\n" ++ b) = true := starts_append starts_83
theorem lex_84 : feedAll .gap (lit "\t\t/Colors 1\n") = some ([.name (lit "Colors"), .word (lit "1")], .gap) := by decide +kernel
theorem starts_84 : Starts (lit "\t\t/Colors 1\n") = true := by decide +kernel
theorem starts_84_ (b : Bytes) : Starts (lit "\t\t/Colors 1\n" ++ b) = true := starts_append starts_84
theorem lex_85 : feedAll .gap (lit "\t\t/BitsPerComponent 8\n") = some ([.name (lit "BitsPerComponent"), .word (lit "8")], .gap) := by decide +kernel
theorem starts_85 : Starts (lit "\t\t/BitsPerComponent 8\n") = true := by decide +kernel
theorem starts_85_ (b : Bytes) : Starts (lit "\t\t/BitsPerComponent 8\n" ++ b) = true := starts_append starts_85
theorem lex_86 : feedAll .gap (lit "\t\t/Columns ") = some ([.name (lit "Columns")], .gap) := by decide +kernel
theorem starts_86 : Starts (lit "\t\t/Columns ") = true := by decide +kernel
theorem starts_86_ (b : Bytes) : Starts (lit "\t\t/Columns " ++ b) = true := starts_append starts_86
theorem lex_87 : feedAll .gap (lit "\t/DecodeParms <<") = some ([.name (lit "DecodeParms"), .dictOpen], .gap) := by decide +kernel
theorem starts_87 : Starts (lit "\t/DecodeParms <<") = true := by decide +kernel
theorem starts_87_ (b : Bytes) : Starts (lit "\t/DecodeParms <<" ++ b) = true := starts_append starts_87
theorem lex_88 : feedAll .gap (lit "/Predictor 15 /Colors  ") = some ([.name (lit "Predictor"), .word (lit "15"), .name (lit "Colors")], .gap) := by decide +kernel
theorem starts_88 : Starts (lit "/Predictor 15 /Colors  ") = true := by decide +kernel
theorem starts_88_ (b : Bytes) : Starts (lit "/Predictor 15 /Colors  " ++ b) = true := starts_append starts_88
theorem lex_89 : feedAll .gap (lit " /BitsPerComponent ") = some ([.name (lit "BitsPerComponent")], .gap) := by decide +kernel
theorem starts_89 : Starts (lit " /BitsPerComponent ") = true := by decide +kernel
theorem starts_89_ (b : Bytes) : Starts (lit " /BitsPerComponent " ++ b) = true := starts_append starts_89
theorem lex_90 : feedAll .gap (lit " /Columns ") = some ([.name (lit "Columns")], .gap) := by decide +kernel
theorem starts_90 : Starts (lit " /Columns ") = true := by decide +kernel
theorem starts_90_ (b : Bytes) : Starts (lit " /Columns " ++ b) = true := starts_append starts_90
theorem lex_91 : feedAll .gap (lit "\t/Mask [") = some ([.name (lit "Mask"), .arrOpen], .gap) := by decide +kernel
theorem starts_91 : Starts (lit "\t/Mask [") = true := by decide +kernel
theorem starts_91_ (b : Bytes) : Starts (lit "\t/Mask [" ++ b) = true := starts_append starts_91
theorem lex_92 : feedAll .gap (lit "\t]\n") = some ([.arrClose], .gap) := by decide +kernel
theorem starts_92 : Starts (lit "\t]\n") = true := by decide +kernel
theorem starts_92_ (b : Bytes) : Starts (lit "\t]\n" ++ b) = true := starts_append starts_92
theorem lex_93 : feedAll .gap (lit "\t/SMask ") = some ([.name (lit "SMask")], .gap) := by decide +kernel
theorem starts_93 : Starts (lit "\t/SMask ") = true := by decide +kernel
theorem starts_93_ (b : Bytes) : Starts (lit "\t/SMask " ++ b) = true := starts_append starts_93
theorem lex_94 : feedAll .gap (lit "/Predictor 15 /Colors 1 /BitsPerComponent 8 /Columns ") = some ([.name (lit "Predictor"), .word (lit "15"), .name (lit "Colors"), .word (lit "1"), .name (lit "BitsPerComponent"), .word (lit "8"), .name (lit "Columns")], .gap) := by decide +kernel
theorem starts_94 : Starts (lit "/Predictor 15 /Colors 1 /BitsPerComponent 8 /Columns ") = true := by decide +kernel
theorem starts_94_ (b : Bytes) : Starts (lit "/Predictor 15 /Colors 1 /BitsPerComponent 8 /Columns " ++ b) = true := starts_append starts_94
theorem lex_95 : feedAll .gap (lit "\t/Type /ExtGState\n") = some ([.name (lit "Type"), .name (lit "ExtGState")], .gap) := by decide +kernel
theorem starts_95 : Starts (lit "\t/Type /ExtGState\n") = true := by decide +kernel
theorem starts_95_ (b : Bytes) : Starts (lit "\t/Type /ExtGState\n" ++ b) = true := starts_append starts_95
theorem lex_96 : feedAll .gap (lit "\t/ca ") = some ([.name (lit "ca")], .gap) := by decide +kernel
theorem starts_96 : Starts (lit "\t/ca ") = true := by decide +kernel
theorem starts_96_ (b : Bytes) : Starts (lit "\t/ca " ++ b) = true := starts_append starts_96
theorem lex_97 : feedAll .gap (lit "\t/CA ") = some ([.name (lit "CA")], .gap) := by decide +kernel
theorem starts_97 : Starts (lit "\t/CA ") = true := by decide +kernel
theorem starts_97_ (b : Bytes) : Starts (lit "\t/CA " ++ b) = true := starts_append starts_97
theorem lex_98 : feedAll .gap (lit "\t/BM /") = some ([.name (lit "BM")], .name ([])) := by decide +kernel
theorem starts_98 : Starts (lit "\t/BM /") = true := by decide +kernel
theorem starts_98_ (b : Bytes) : Starts (lit "\t/BM /" ++ b) = true := starts_append starts_98
theorem lex_99 : feedAll .gap (lit "\t/Type /Mask\n") = some ([.name (lit "Type"), .name (lit "Mask")], .gap) := by decide +kernel
theorem starts_99 : Starts (lit "\t/Type /Mask\n") = true := by decide +kernel
theorem starts_99_ (b : Bytes) : Starts (lit "\t/Type /Mask\n" ++ b) = true := starts_append starts_99
theorem lex_100 : feedAll .gap (lit "\t/S /Luminosity\n") = some ([.name (lit "S"), .name (lit "Luminosity")], .gap) := by decide +kernel
theorem starts_100 : Starts (lit "\t/S /Luminosity\n") = true := by decide +kernel
theorem starts_100_ (b : Bytes) : Starts (lit "\t/S /Luminosity\n" ++ b) = true := starts_append starts_100
theorem lex_101 : feedAll .gap (lit "\t/G ") = some ([.name (lit "G")], .gap) := by decide +kernel
theorem starts_101 : Starts (lit "\t/G ") = true := by decide +kernel
theorem starts_101_ (b : Bytes) : Starts (lit "\t/G " ++ b) = true := starts_append starts_101
theorem lex_102 : feedAll .gap (lit "\t/FormType 1\n") = some ([.name (lit "FormType"), .word (lit "1")], .gap) := by decide +kernel
theorem starts_102 : Starts (lit "\t/FormType 1\n") = true := by decide +kernel
theorem starts_102_ (b : Bytes) : Starts (lit "\t/FormType 1\n" ++ b) = true := starts_append starts_102
theorem lex_103 : feedAll .gap (lit "\t/Subtype /Form\n") = some ([.name (lit "Subtype"), .name (lit "Form")], .gap) := by decide +kernel
theorem starts_103 : Starts (lit "\t/Subtype /Form\n") = true := by decide +kernel
theorem starts_103_ (b : Bytes) : Starts (lit "\t/Subtype /Form\n" ++ b) = true := starts_append starts_103
theorem lex_104 : feedAll .gap (lit "\t/Matrix [1 0 0 1 0 0]\n") = some ([.name (lit "Matrix"), .arrOpen, .word (lit "1"), .word (lit "0"), .word (lit "0"), .word (lit "1"), .word (lit "0"), .word (lit "0"), .arrClose], .gap) := by decide +kernel
theorem starts_104 : Starts (lit "\t/Matrix [1 0 0 1 0 0]\n") = true := by decide +kernel
theorem starts_104_ (b : Bytes) : Starts (lit "\t/Matrix [1 0 0 1 0 0]\n" ++ b) = true := starts_append starts_104
theorem lex_105 : feedAll .gap (lit "\t/BBox [") = some ([.name (lit "BBox"), .arrOpen], .gap) := by decide +kernel
theorem starts_105 : Starts (lit "\t/BBox [") = true := by decide +kernel
theorem starts_105_ (b : Bytes) : Starts (lit "\t/BBox [" ++ b) = true := starts_append starts_105
theorem lex_106 : feedAll .gap (lit "\t/Group<</CS /DeviceGray /S /Transparency>>\n") = some ([.name (lit "Group"), .dictOpen, .name (lit "CS"), .name (lit "DeviceGray"), .name (lit "S"), .name (lit "Transparency"), .dictClose], .gap) := by decide +kernel
theorem starts_106 : Starts (lit "\t/Group<</CS /DeviceGray /S /Transparency>>\n") = true := by decide +kernel
theorem starts_106_ (b : Bytes) : Starts (lit "\t/Group<</CS /DeviceGray /S /Transparency>>\n" ++ b) = true := starts_append starts_106
theorem lex_107 : feedAll .gap (lit "<</Type /Annot /Subtype /Link /Rect [") = some ([.dictOpen, .name (lit "Type"), .name (lit "Annot"), .name (lit "Subtype"), .name (lit "Link"), .name (lit "Rect"), .arrOpen], .gap) := by decide +kernel
theorem starts_107 : Starts (lit "<</Type /Annot /Subtype /Link /Rect [") = true := by decide +kernel
theorem starts_107_ (b : Bytes) : Starts (lit "<</Type /Annot /Subtype /Link /Rect [" ++ b) = true := starts_append starts_107
theorem lex_108 : feedAll .gap (lit "] /Border [0 0 0] ") = some ([.arrClose, .name (lit "Border"), .arrOpen, .word (lit "0"), .word (lit "0"), .word (lit "0"), .arrClose], .gap) := by decide +kernel
theorem starts_108 : Starts (lit "] /Border [0 0 0] ") = true := by decide +kernel
theorem starts_108_ (b : Bytes) : Starts (lit "] /Border [0 0 0] " ++ b) = true := starts_append starts_108
theorem lex_109 : feedAll .gap (lit "/A <</S /URI /URI (") = some ([.name (lit "A"), .dictOpen, .name (lit "S"), .name (lit "URI"), .name (lit "URI")], .str .norm 0 ([])) := by decide +kernel
theorem starts_109 : Starts (lit "/A <</S /URI /URI (") = true := by decide +kernel
theorem starts_109_ (b : Bytes) : Starts (lit "/A <</S /URI /URI (" ++ b) = true := starts_append starts_109
-- not read from a gap: lit ")>>>>\n"
theorem lex_110 : feedAll .gap (lit "/Dest [") = some ([.name (lit "Dest"), .arrOpen], .gap) := by decide +kernel
theorem starts_110 : Starts (lit "/Dest [") = true := by decide +kernel
theorem starts_110_ (b : Bytes) : Starts (lit "/Dest [" ++ b) = true := starts_append starts_110
theorem lex_111 : feedAll .gap (lit " /XYZ 0 ") = some ([.name (lit "XYZ"), .word (lit "0")], .gap) := by decide +kernel
theorem starts_111 : Starts (lit " /XYZ 0 ") = true := by decide +kernel
theorem starts_111_ (b : Bytes) : Starts (lit " /XYZ 0 " ++ b) = true := starts_append starts_111
theorem lex_112 : feedAll .gap (lit " null]>>\n") = some ([.word (lit "null"), .arrClose, .dictClose], .gap) := by decide +kernel
theorem starts_112 : Starts (lit " null]>>\n") = true := by decide +kernel
theorem starts_112_ (b : Bytes) : Starts (lit " null]>>\n" ++ b) = true := starts_append starts_112
theorem lex_113 : feedAll .gap (lit "[ /Separation /") = some ([.arrOpen, .name (lit "Separation")], .name ([])) := by decide +kernel
theorem starts_113 : Starts (lit "[ /Separation /") = true := by decide +kernel
theorem starts_113_ (b : Bytes) : Starts (lit "[ /Separation /" ++ b) = true := starts_append starts_113
theorem lex_114 : feedAll .gap (lit " /DeviceRGB\n") = some ([.name (lit "DeviceRGB")], .gap) := by decide +kernel
theorem starts_114 : Starts (lit " /DeviceRGB\n") = true := by decide +kernel
theorem starts_114_ (b : Bytes) : Starts (lit " /DeviceRGB\n" ++ b) = true := starts_append starts_114
theorem lex_115 : feedAll .gap (lit "\t\t<< \n") = some ([.dictOpen], .gap) := by decide +kernel
theorem starts_115 : Starts (lit "\t\t<< \n") = true := by decide +kernel
theorem starts_115_ (b : Bytes) : Starts (lit "\t\t<< \n" ++ b) = true := starts_append starts_115
theorem lex_116 : feedAll .gap (lit "\t\t\t/FunctionType 2\n") = some ([.name (lit "FunctionType"), .word (lit "2")], .gap) := by decide +kernel
theorem starts_116 : Starts (lit "\t\t\t/FunctionType 2\n") = true := by decide +kernel
theorem starts_116_ (b : Bytes) : Starts (lit "\t\t\t/FunctionType 2\n" ++ b) = true := starts_append starts_116
theorem lex_117 : feedAll .gap (lit "\t\t\t/Domain [0 1]\n") = some ([.name (lit "Domain"), .arrOpen, .word (lit "0"), .word (lit "1"), .arrClose], .gap) := by decide +kernel
theorem starts_117 : Starts (lit "\t\t\t/Domain [0 1]\n") = true := by decide +kernel
theorem starts_117_ (b : Bytes) : Starts (lit "\t\t\t/Domain [0 1]\n" ++ b) = true := starts_append starts_117
theorem lex_118 : feedAll .gap (lit "\t\t\t/C0 [0.0 0.0 0.0]\n") = some ([.name (lit "C0"), .arrOpen, .word (lit "0.0"), .word (lit "0.0"), .word (lit "0.0"), .arrClose], .gap) := by decide +kernel
theorem starts_118 : Starts (lit "\t\t\t/C0 [0.0 0.0 0.0]\n") = true := by decide +kernel
theorem starts_118_ (b : Bytes) : Starts (lit "\t\t\t/C0 [0.0 0.0 0.0]\n" ++ b) = true := starts_append starts_118
theorem lex_119 : feedAll .gap (lit "\t\t\t/C1 [") = some ([.name (lit "C1"), .arrOpen], .gap) := by decide +kernel
theorem starts_119 : Starts (lit "\t\t\t/C1 [") = true := by decide +kernel
theorem starts_119_ (b : Bytes) : Starts (lit "\t\t\t/C1 [" ++ b) = true := starts_append starts_119
theorem lex_120 : feedAll .gap (lit " /DeviceCMYK\n") = some ([.name (lit "DeviceCMYK")], .gap) := by decide +kernel
theorem starts_120 : Starts (lit " /DeviceCMYK\n") = true := by decide +kernel
theorem starts_120_ (b : Bytes) : Starts (lit " /DeviceCMYK\n" ++ b) = true := starts_append starts_120
theorem lex_121 : feedAll .gap (lit "\t\t\t/C0 [0.0 0.0 0.0 0.0]\n") = some ([.name (lit "C0"), .arrOpen, .word (lit "0.0"), .word (lit "0.0"), .word (lit "0.0"), .word (lit "0.0"), .arrClose], .gap) := by decide +kernel
theorem starts_121 : Starts (lit "\t\t\t/C0 [0.0 0.0 0.0 0.0]\n") = true := by decide +kernel
theorem starts_121_ (b : Bytes) : Starts (lit "\t\t\t/C0 [0.0 0.0 0.0 0.0]\n" ++ b) = true := starts_append starts_121
theorem lex_122 : feedAll .gap (lit "\t\t\t/N 1\n") = some ([.name (lit "N"), .word (lit "1")], .gap) := by decide +kernel
theorem starts_122 : Starts (lit "\t\t\t/N 1\n") = true := by decide +kernel
theorem starts_122_ (b : Bytes) : Starts (lit "\t\t\t/N 1\n" ++ b) = true := starts_append starts_122
theorem lex_123 : feedAll .gap (lit "\t\t>>\n") = some ([.dictClose], .gap) := by decide +kernel
theorem starts_123 : Starts (lit "\t\t>>\n") = true := by decide +kernel
theorem starts_123_ (b : Bytes) : Starts (lit "\t\t>>\n" ++ b) = true := starts_append starts_123
theorem lex_124 : feedAll .gap (lit "/Filter /Standard\n") = some ([.name (lit "Filter"), .name (lit "Standard")], .gap) := by decide +kernel
theorem starts_124 : Starts (lit "/Filter /Standard\n") = true := by decide +kernel
theorem starts_124_ (b : Bytes) : Starts (lit "/Filter /Standard\n" ++ b) = true := starts_append starts_124
theorem lex_125 : feedAll .gap (lit "/V 1\n") = some ([.name (lit "V"), .word (lit "1")], .gap) := by decide +kernel
theorem starts_125 : Starts (lit "/V 1\n") = true := by decide +kernel
theorem starts_125_ (b : Bytes) : Starts (lit "/V 1\n" ++ b) = true := starts_append starts_125
theorem lex_126 : feedAll .gap (lit "/R 2\n") = some ([.name (lit "R"), .word (lit "2")], .gap) := by decide +kernel
theorem starts_126 : Starts (lit "/R 2\n") = true := by decide +kernel
theorem starts_126_ (b : Bytes) : Starts (lit "/R 2\n" ++ b) = true := starts_append starts_126
theorem lex_127 : feedAll .gap (lit "/O (") = some ([.name (lit "O")], .str .norm 0 ([])) := by decide +kernel
theorem starts_127 : Starts (lit "/O (") = true := by decide +kernel
theorem starts_127_ (b : Bytes) : Starts (lit "/O (" ++ b) = true := starts_append starts_127
-- not read from a gap: lit ")\n"
theorem lex_128 : feedAll .gap (lit "/U (") = some ([.name (lit "U")], .str .norm 0 ([])) := by decide +kernel
theorem starts_128 : Starts (lit "/U (") = true := by decide +kernel
theorem starts_128_ (b : Bytes) : Starts (lit "/U (" ++ b) = true := starts_append starts_128
theorem lex_129 : feedAll .gap (lit "/P ") = some ([.name (lit "P")], .gap) := by decide +kernel
theorem starts_129 : Starts (lit "/P ") = true := by decide +kernel
theorem starts_129_ (b : Bytes) : Starts (lit "/P " ++ b) = true := starts_append starts_129
theorem lex_130 : feedAll .gap (lit "/Filter/FlateDecode") = some ([.name (lit "Filter")], .name (lit "FlateDecode")) := by decide +kernel
theorem starts_130 : Starts (lit "/Filter/FlateDecode") = true := by decide +kernel
theorem starts_130_ (b : Bytes) : Starts (lit "/Filter/FlateDecode" ++ b) = true := starts_append starts_130
theorem lex_131 : feedAll .gap (lit "/Length ") = some ([.name (lit "Length")], .gap) := by decide +kernel
theorem starts_131 : Starts (lit "/Length ") = true := by decide +kernel
theorem starts_131_ (b : Bytes) : Starts (lit "/Length " ++ b) = true := starts_append starts_131
theorem lex_132 : feedAll .gap (lit "stream\n") = some ([.word (lit "stream")], .gap) := by decide +kernel
theorem lex_133 : feedAll .gap (lit "endstream\n") = some ([.word (lit "endstream")], .gap) := by decide +kernel
theorem lex_134 : feedAll .gap (lit "<<") = some ([.dictOpen], .gap) := by decide +kernel
theorem starts_134 : Starts (lit "<<") = true := by decide +kernel
theorem starts_134_ (b : Bytes) : Starts (lit "<<" ++ b) = true := starts_append starts_134
theorem lex_135 : feedAll .gap (lit "/Filter /FlateDecode\n") = some ([.name (lit "Filter"), .name (lit "FlateDecode")], .gap) := by decide +kernel
theorem starts_135 : Starts (lit "/Filter /FlateDecode\n") = true := by decide +kernel
theorem starts_135_ (b : Bytes) : Starts (lit "/Filter /FlateDecode\n" ++ b) = true := starts_append starts_135
theorem lex_136 : feedAll .gap (lit "/Length1 ") = some ([.name (lit "Length1")], .gap) := by decide +kernel
theorem starts_136 : Starts (lit "/Length1 ") = true := by decide +kernel
theorem starts_136_ (b : Bytes) : Starts (lit "/Length1 " ++ b) = true := starts_append starts_136
theorem lex_137 : feedAll .gap (lit "\nendstream\n") = some ([.word (lit "endstream")], .gap) := by decide +kernel
theorem starts_137 : Starts (lit "\nendstream\n") = true := by decide +kernel
theorem starts_137_ (b : Bytes) : Starts (lit "\nendstream\n" ++ b) = true := starts_append starts_137
theorem lex_138 : feedAll .gap (lit "\t") = some ([], .gap) := by decide +kernel
theorem starts_138 : Starts (lit "\t") = true := by decide +kernel
theorem starts_138_ (b : Bytes) : Starts (lit "\t" ++ b) = true := starts_append starts_138
theorem lex_139 : feedAll .gap (lit "\n>>\n") = some ([.dictClose], .gap) := by decide +kernel
theorem starts_139 : Starts (lit "\n>>\n") = true := by decide +kernel
theorem starts_139_ (b : Bytes) : Starts (lit "\n>>\n" ++ b) = true := starts_append starts_139
theorem push_0 (st : List Entry) : push st (.word (lit "0")) = some (.val (.num 0) :: st) :=
  push_number (by decide +kernel) st
theorem push_1 (st : List Entry) : push st (.word (lit "2")) = some (.val (.num 2) :: st) :=
  push_number (by decide +kernel) st
theorem push_3 (st : List Entry) : push st (.word (lit "90")) = some (.val (.num 90) :: st) :=
  push_number (by decide +kernel) st
theorem push_4 (st : List Entry) : push st (.word (lit "1")) = some (.val (.num 1) :: st) :=
  push_number (by decide +kernel) st
theorem push_5 (st : List Entry) : push st (.word (lit "15")) = some (.val (.num 15) :: st) :=
  push_number (by decide +kernel) st
theorem push_6 (st : List Entry) : push st (.word (lit "8")) = some (.val (.num 8) :: st) :=
  push_number (by decide +kernel) st
theorem push_8 (st : List Entry) : push st (.word (lit "0.0")) = some (.val (.num 0) :: st) :=
  push_number (by decide +kernel) st

/-- Objects of the tokens of a literal. -/
macro "push_lit" : tactic => `(tactic| simp only [pushAll_cons, pushAll_nil, push_name, push_str, push_arrOpen, push_arrClose,
  push_dictOpen, push_dictClose, push_null, push_R2, closeArr_val, closeArr_open, closeDict_val, Option.bind_some, Option.bind_assoc,
  push_0, push_1, push_3, push_4, push_5, push_6, push_8])

theorem run_5 (st : List Entry) (b : Bytes) : run st (lit "<<\n" ++ b) = run (.dictOpen :: st) b := by
  rw [run_gap lex_5]; push_lit
theorem fin_5 (st : List Entry) : run st (lit "<<\n") = some (.dictOpen :: st) := by
  rw [run_end lex_5]; push_lit
theorem run_6 (st : List Entry) (b : Bytes) : run st (lit "  /Type /Catalog\n" ++ b) = run (.val (.name (lit "Catalog")) :: .val (.name (lit "Type")) :: st) b := by
  rw [run_gap lex_6]; push_lit
theorem fin_6 (st : List Entry) : run st (lit "  /Type /Catalog\n") = some (.val (.name (lit "Catalog")) :: .val (.name (lit "Type")) :: st) := by
  rw [run_end lex_6]; push_lit
theorem run_7 (st : List Entry) (b : Bytes) : run st (lit "  /Pages 2 0 R\n" ++ b) = run (.val (.ref 2) :: .val (.name (lit "Pages")) :: st) b := by
  rw [run_gap lex_7]; push_lit
theorem fin_7 (st : List Entry) : run st (lit "  /Pages 2 0 R\n") = some (.val (.ref 2) :: .val (.name (lit "Pages")) :: st) := by
  rw [run_end lex_7]; push_lit
theorem run_8 (st : List Entry) (b : Bytes) : run st (lit "  /PageMode /UseOutlines\n" ++ b) = run (.val (.name (lit "UseOutlines")) :: .val (.name (lit "PageMode")) :: st) b := by
  rw [run_gap lex_8]; push_lit
theorem fin_8 (st : List Entry) : run st (lit "  /PageMode /UseOutlines\n") = some (.val (.name (lit "UseOutlines")) :: .val (.name (lit "PageMode")) :: st) := by
  rw [run_end lex_8]; push_lit
theorem run_9 (st : List Entry) (b : Bytes) : run st (lit "  /Outlines " ++ b) = run (.val (.name (lit "Outlines")) :: st) b := by
  rw [run_gap lex_9]; push_lit
theorem fin_9 (st : List Entry) : run st (lit "  /Outlines ") = some (.val (.name (lit "Outlines")) :: st) := by
  rw [run_end lex_9]; push_lit
theorem run_10 (st : List Entry) (b : Bytes) : run st (lit "\n" ++ b) = run st b := by
  rw [run_gap lex_10]; push_lit
theorem fin_10 (st : List Entry) : run st (lit "\n") = some st := by
  rw [run_end lex_10]; push_lit
theorem run_11 (st : List Entry) (b : Bytes) : run st (lit ">>\n" ++ b) = (closeDict [] st).bind fun st => run st b := by
  rw [run_gap lex_11]; push_lit
theorem fin_11 (st : List Entry) : run st (lit ">>\n") = (closeDict [] st).bind fun st => some st := by
  rw [run_end lex_11]; push_lit
theorem run_12 (st : List Entry) (b : Bytes) : run st (lit " " ++ b) = run st b := by
  rw [run_gap lex_12]; push_lit
theorem fin_12 (st : List Entry) : run st (lit " ") = some st := by
  rw [run_end lex_12]; push_lit
theorem run_13 (st : List Entry) (b : Bytes) : run st (lit "  /Type /Pages\n" ++ b) = run (.val (.name (lit "Pages")) :: .val (.name (lit "Type")) :: st) b := by
  rw [run_gap lex_13]; push_lit
theorem fin_13 (st : List Entry) : run st (lit "  /Type /Pages\n") = some (.val (.name (lit "Pages")) :: .val (.name (lit "Type")) :: st) := by
  rw [run_end lex_13]; push_lit
theorem run_14 (st : List Entry) (b : Bytes) : run st (lit "  /MediaBox [ 0 0 " ++ b) = run (.val (.num 0) :: .val (.num 0) :: .arrOpen :: .val (.name (lit "MediaBox")) :: st) b := by
  rw [run_gap lex_14]; push_lit
theorem fin_14 (st : List Entry) : run st (lit "  /MediaBox [ 0 0 ") = some (.val (.num 0) :: .val (.num 0) :: .arrOpen :: .val (.name (lit "MediaBox")) :: st) := by
  rw [run_end lex_14]; push_lit
theorem run_15 (st : List Entry) (b : Bytes) : run st (lit " ]\n" ++ b) = (closeArr [] st).bind fun st => run st b := by
  rw [run_gap lex_15]; push_lit
theorem fin_15 (st : List Entry) : run st (lit " ]\n") = (closeArr [] st).bind fun st => some st := by
  rw [run_end lex_15]; push_lit
theorem run_16 (st : List Entry) (b : Bytes) : run st (lit "  /Count " ++ b) = run (.val (.name (lit "Count")) :: st) b := by
  rw [run_gap lex_16]; push_lit
theorem fin_16 (st : List Entry) : run st (lit "  /Count ") = some (.val (.name (lit "Count")) :: st) := by
  rw [run_end lex_16]; push_lit
theorem run_17 (st : List Entry) (b : Bytes) : run st (lit "  /Kids [ " ++ b) = run (.arrOpen :: .val (.name (lit "Kids")) :: st) b := by
  rw [run_gap lex_17]; push_lit
theorem fin_17 (st : List Entry) : run st (lit "  /Kids [ ") = some (.arrOpen :: .val (.name (lit "Kids")) :: st) := by
  rw [run_end lex_17]; push_lit
theorem run_18 (st : List Entry) (b : Bytes) : run st (lit "  /Annots [" ++ b) = run (.arrOpen :: .val (.name (lit "Annots")) :: st) b := by
  rw [run_gap lex_18]; push_lit
theorem fin_18 (st : List Entry) : run st (lit "  /Annots [") = some (.arrOpen :: .val (.name (lit "Annots")) :: st) := by
  rw [run_end lex_18]; push_lit
theorem run_19 (st : List Entry) (b : Bytes) : run st (lit "]\n" ++ b) = (closeArr [] st).bind fun st => run st b := by
  rw [run_gap lex_19]; push_lit
theorem fin_19 (st : List Entry) : run st (lit "]\n") = (closeArr [] st).bind fun st => some st := by
  rw [run_end lex_19]; push_lit
theorem run_20 (st : List Entry) (b : Bytes) : run st (lit "  /Contents " ++ b) = run (.val (.name (lit "Contents")) :: st) b := by
  rw [run_gap lex_20]; push_lit
theorem fin_20 (st : List Entry) : run st (lit "  /Contents ") = some (.val (.name (lit "Contents")) :: st) := by
  rw [run_end lex_20]; push_lit
theorem run_21 (st : List Entry) (b : Bytes) : run st (lit " /MediaBox [ 0 0 " ++ b) = run (.val (.num 0) :: .val (.num 0) :: .arrOpen :: .val (.name (lit "MediaBox")) :: st) b := by
  rw [run_gap lex_21]; push_lit
theorem fin_21 (st : List Entry) : run st (lit " /MediaBox [ 0 0 ") = some (.val (.num 0) :: .val (.num 0) :: .arrOpen :: .val (.name (lit "MediaBox")) :: st) := by
  rw [run_end lex_21]; push_lit
theorem run_22 (st : List Entry) (b : Bytes) : run st (lit " /TrimBox [ " ++ b) = run (.arrOpen :: .val (.name (lit "TrimBox")) :: st) b := by
  rw [run_gap lex_22]; push_lit
theorem fin_22 (st : List Entry) : run st (lit " /TrimBox [ ") = some (.arrOpen :: .val (.name (lit "TrimBox")) :: st) := by
  rw [run_end lex_22]; push_lit
theorem run_23 (st : List Entry) (b : Bytes) : run st (lit "  /Type /Page\n" ++ b) = run (.val (.name (lit "Page")) :: .val (.name (lit "Type")) :: st) b := by
  rw [run_gap lex_23]; push_lit
theorem fin_23 (st : List Entry) : run st (lit "  /Type /Page\n") = some (.val (.name (lit "Page")) :: .val (.name (lit "Type")) :: st) := by
  rw [run_end lex_23]; push_lit
theorem run_24 (st : List Entry) (b : Bytes) : run st (lit "  /Parent 2 0 R\n" ++ b) = run (.val (.ref 2) :: .val (.name (lit "Parent")) :: st) b := by
  rw [run_gap lex_24]; push_lit
theorem fin_24 (st : List Entry) : run st (lit "  /Parent 2 0 R\n") = some (.val (.ref 2) :: .val (.name (lit "Parent")) :: st) := by
  rw [run_end lex_24]; push_lit
theorem run_25 (st : List Entry) (b : Bytes) : run st (lit "  /Resources " ++ b) = run (.val (.name (lit "Resources")) :: st) b := by
  rw [run_gap lex_25]; push_lit
theorem fin_25 (st : List Entry) : run st (lit "  /Resources ") = some (.val (.name (lit "Resources")) :: st) := by
  rw [run_end lex_25]; push_lit
theorem run_26 (st : List Entry) (b : Bytes) : run st (lit "\t/Type /Outlines\n" ++ b) = run (.val (.name (lit "Outlines")) :: .val (.name (lit "Type")) :: st) b := by
  rw [run_gap lex_26]; push_lit
theorem fin_26 (st : List Entry) : run st (lit "\t/Type /Outlines\n") = some (.val (.name (lit "Outlines")) :: .val (.name (lit "Type")) :: st) := by
  rw [run_end lex_26]; push_lit
theorem run_27 (st : List Entry) (b : Bytes) : run st (lit "\t/Count " ++ b) = run (.val (.name (lit "Count")) :: st) b := by
  rw [run_gap lex_27]; push_lit
theorem fin_27 (st : List Entry) : run st (lit "\t/Count ") = some (.val (.name (lit "Count")) :: st) := by
  rw [run_end lex_27]; push_lit
theorem run_28 (st : List Entry) (b : Bytes) : run st (lit "\t/First " ++ b) = run (.val (.name (lit "First")) :: st) b := by
  rw [run_gap lex_28]; push_lit
theorem fin_28 (st : List Entry) : run st (lit "\t/First ") = some (.val (.name (lit "First")) :: st) := by
  rw [run_end lex_28]; push_lit
theorem run_29 (st : List Entry) (b : Bytes) : run st (lit "\t/Last " ++ b) = run (.val (.name (lit "Last")) :: st) b := by
  rw [run_gap lex_29]; push_lit
theorem fin_29 (st : List Entry) : run st (lit "\t/Last ") = some (.val (.name (lit "Last")) :: st) := by
  rw [run_end lex_29]; push_lit
theorem run_30 (st : List Entry) (b : Bytes) : run st (lit "  /Parent " ++ b) = run (.val (.name (lit "Parent")) :: st) b := by
  rw [run_gap lex_30]; push_lit
theorem fin_30 (st : List Entry) : run st (lit "  /Parent ") = some (.val (.name (lit "Parent")) :: st) := by
  rw [run_end lex_30]; push_lit
theorem run_31 (st : List Entry) (b : Bytes) : run st (lit "  /Prev " ++ b) = run (.val (.name (lit "Prev")) :: st) b := by
  rw [run_gap lex_31]; push_lit
theorem fin_31 (st : List Entry) : run st (lit "  /Prev ") = some (.val (.name (lit "Prev")) :: st) := by
  rw [run_end lex_31]; push_lit
theorem run_32 (st : List Entry) (b : Bytes) : run st (lit "  /Next " ++ b) = run (.val (.name (lit "Next")) :: st) b := by
  rw [run_gap lex_32]; push_lit
theorem fin_32 (st : List Entry) : run st (lit "  /Next ") = some (.val (.name (lit "Next")) :: st) := by
  rw [run_end lex_32]; push_lit
theorem run_33 (st : List Entry) (b : Bytes) : run st (lit "  /Dest [ " ++ b) = run (.arrOpen :: .val (.name (lit "Dest")) :: st) b := by
  rw [run_gap lex_33]; push_lit
theorem fin_33 (st : List Entry) : run st (lit "  /Dest [ ") = some (.arrOpen :: .val (.name (lit "Dest")) :: st) := by
  rw [run_end lex_33]; push_lit
theorem run_34 (st : List Entry) (b : Bytes) : run st (lit " /XYZ 90 " ++ b) = run (.val (.num 90) :: .val (.name (lit "XYZ")) :: st) b := by
  rw [run_gap lex_34]; push_lit
theorem fin_34 (st : List Entry) : run st (lit " /XYZ 90 ") = some (.val (.num 90) :: .val (.name (lit "XYZ")) :: st) := by
  rw [run_end lex_34]; push_lit
theorem run_35 (st : List Entry) (b : Bytes) : run st (lit " 0 ]\n" ++ b) = (closeArr [.num 0] st).bind fun st => run st b := by
  rw [run_gap lex_35]; push_lit
theorem fin_35 (st : List Entry) : run st (lit " 0 ]\n") = (closeArr [.num 0] st).bind fun st => some st := by
  rw [run_end lex_35]; push_lit
-- by hand: 36 lit "  /Title <FEFF"
theorem name_37 (st : List Entry) {w b : Bytes} (hw : NameChars w) (hb : Starts b = true) :
    run st (lit "\t\t/" ++ (w ++ b)) = run (.val (.name w) :: st) b :=
  run_name lex_37 (by push_lit) hw hb
theorem run_38 (st : List Entry) (b : Bytes) : run st (lit "\t\t" ++ b) = run st b := by
  rw [run_gap lex_38]; push_lit
theorem fin_38 (st : List Entry) : run st (lit "\t\t") = some st := by
  rw [run_end lex_38]; push_lit
theorem run_39 (st : List Entry) (b : Bytes) : run st (lit "\t/ProcSet [/PDF /Text /ImageB /ImageC /ImageI]\n" ++ b) = run (.val (.arr [.name (lit "PDF"), .name (lit "Text"), .name (lit "ImageB"), .name (lit "ImageC"), .name (lit "ImageI")]) :: .val (.name (lit "ProcSet")) :: st) b := by
  rw [run_gap lex_39]; push_lit
theorem fin_39 (st : List Entry) : run st (lit "\t/ProcSet [/PDF /Text /ImageB /ImageC /ImageI]\n") = some (.val (.arr [.name (lit "PDF"), .name (lit "Text"), .name (lit "ImageB"), .name (lit "ImageC"), .name (lit "ImageI")]) :: .val (.name (lit "ProcSet")) :: st) := by
  rw [run_end lex_39]; push_lit
theorem run_40 (st : List Entry) (b : Bytes) : run st (lit "\t/Font <<\n" ++ b) = run (.dictOpen :: .val (.name (lit "Font")) :: st) b := by
  rw [run_gap lex_40]; push_lit
theorem fin_40 (st : List Entry) : run st (lit "\t/Font <<\n") = some (.dictOpen :: .val (.name (lit "Font")) :: st) := by
  rw [run_end lex_40]; push_lit
theorem run_41 (st : List Entry) (b : Bytes) : run st (lit "\t>>\n" ++ b) = (closeDict [] st).bind fun st => run st b := by
  rw [run_gap lex_41]; push_lit
theorem fin_41 (st : List Entry) : run st (lit "\t>>\n") = (closeDict [] st).bind fun st => some st := by
  rw [run_end lex_41]; push_lit
theorem run_42 (st : List Entry) (b : Bytes) : run st (lit "\t/ColorSpace <<\n" ++ b) = run (.dictOpen :: .val (.name (lit "ColorSpace")) :: st) b := by
  rw [run_gap lex_42]; push_lit
theorem fin_42 (st : List Entry) : run st (lit "\t/ColorSpace <<\n") = some (.dictOpen :: .val (.name (lit "ColorSpace")) :: st) := by
  rw [run_end lex_42]; push_lit
theorem run_43 (st : List Entry) (b : Bytes) : run st (lit "\t/XObject <<\n" ++ b) = run (.dictOpen :: .val (.name (lit "XObject")) :: st) b := by
  rw [run_gap lex_43]; push_lit
theorem fin_43 (st : List Entry) : run st (lit "\t/XObject <<\n") = some (.dictOpen :: .val (.name (lit "XObject")) :: st) := by
  rw [run_end lex_43]; push_lit
theorem run_44 (st : List Entry) (b : Bytes) : run st (lit "\t/ExtGState <<\n" ++ b) = run (.dictOpen :: .val (.name (lit "ExtGState")) :: st) b := by
  rw [run_gap lex_44]; push_lit
theorem fin_44 (st : List Entry) : run st (lit "\t/ExtGState <<\n") = some (.dictOpen :: .val (.name (lit "ExtGState")) :: st) := by
  rw [run_end lex_44]; push_lit
theorem name_45 (st : List Entry) {w b : Bytes} (hw : NameChars w) (hb : Starts b = true) :
    run st (lit "/BaseFont /" ++ (w ++ b)) = run (.val (.name w) :: (.val (.name (lit "BaseFont")) :: st)) b :=
  run_name lex_45 (by push_lit) hw hb
theorem run_46 (st : List Entry) (b : Bytes) : run st (lit "/DescendantFonts [" ++ b) = run (.arrOpen :: .val (.name (lit "DescendantFonts")) :: st) b := by
  rw [run_gap lex_46]; push_lit
theorem fin_46 (st : List Entry) : run st (lit "/DescendantFonts [") = some (.arrOpen :: .val (.name (lit "DescendantFonts")) :: st) := by
  rw [run_end lex_46]; push_lit
theorem run_47 (st : List Entry) (b : Bytes) : run st (lit "/Encoding /Identity-H\n" ++ b) = run (.val (.name (lit "Identity-H")) :: .val (.name (lit "Encoding")) :: st) b := by
  rw [run_gap lex_47]; push_lit
theorem fin_47 (st : List Entry) : run st (lit "/Encoding /Identity-H\n") = some (.val (.name (lit "Identity-H")) :: .val (.name (lit "Encoding")) :: st) := by
  rw [run_end lex_47]; push_lit
theorem run_48 (st : List Entry) (b : Bytes) : run st (lit "/Subtype /Type0\n" ++ b) = run (.val (.name (lit "Type0")) :: .val (.name (lit "Subtype")) :: st) b := by
  rw [run_gap lex_48]; push_lit
theorem fin_48 (st : List Entry) : run st (lit "/Subtype /Type0\n") = some (.val (.name (lit "Type0")) :: .val (.name (lit "Subtype")) :: st) := by
  rw [run_end lex_48]; push_lit
theorem run_49 (st : List Entry) (b : Bytes) : run st (lit "/ToUnicode " ++ b) = run (.val (.name (lit "ToUnicode")) :: st) b := by
  rw [run_gap lex_49]; push_lit
theorem fin_49 (st : List Entry) : run st (lit "/ToUnicode ") = some (.val (.name (lit "ToUnicode")) :: st) := by
  rw [run_end lex_49]; push_lit
theorem run_50 (st : List Entry) (b : Bytes) : run st (lit "/Type /Font\n" ++ b) = run (.val (.name (lit "Font")) :: .val (.name (lit "Type")) :: st) b := by
  rw [run_gap lex_50]; push_lit
theorem fin_50 (st : List Entry) : run st (lit "/Type /Font\n") = some (.val (.name (lit "Font")) :: .val (.name (lit "Type")) :: st) := by
  rw [run_end lex_50]; push_lit
theorem run_51 (st : List Entry) (b : Bytes) : run st (lit "[" ++ b) = run (.arrOpen :: st) b := by
  rw [run_gap lex_51]; push_lit
theorem fin_51 (st : List Entry) : run st (lit "[") = some (.arrOpen :: st) := by
  rw [run_end lex_51]; push_lit
theorem run_52 (st : List Entry) (b : Bytes) : run st (lit "]" ++ b) = (closeArr [] st).bind fun st => run st b := by
  rw [run_gap lex_52]; push_lit
theorem fin_52 (st : List Entry) : run st (lit "]") = (closeArr [] st).bind fun st => some st := by
  rw [run_end lex_52]; push_lit
theorem run_53 (st : List Entry) (b : Bytes) : run st (lit "/CIDSystemInfo\n" ++ b) = run (.val (.name (lit "CIDSystemInfo")) :: st) b := by
  rw [run_gap lex_53]; push_lit
theorem fin_53 (st : List Entry) : run st (lit "/CIDSystemInfo\n") = some (.val (.name (lit "CIDSystemInfo")) :: st) := by
  rw [run_end lex_53]; push_lit
theorem run_54 (st : List Entry) (b : Bytes) : run st (lit "  /Ordering (Identity)\n" ++ b) = run (.val (.str (lit "Identity")) :: .val (.name (lit "Ordering")) :: st) b := by
  rw [run_gap lex_54]; push_lit
theorem fin_54 (st : List Entry) : run st (lit "  /Ordering (Identity)\n") = some (.val (.str (lit "Identity")) :: .val (.name (lit "Ordering")) :: st) := by
  rw [run_end lex_54]; push_lit
theorem run_55 (st : List Entry) (b : Bytes) : run st (lit "  /Registry (Adobe)\n" ++ b) = run (.val (.str (lit "Adobe")) :: .val (.name (lit "Registry")) :: st) b := by
  rw [run_gap lex_55]; push_lit
theorem fin_55 (st : List Entry) : run st (lit "  /Registry (Adobe)\n") = some (.val (.str (lit "Adobe")) :: .val (.name (lit "Registry")) :: st) := by
  rw [run_end lex_55]; push_lit
theorem run_56 (st : List Entry) (b : Bytes) : run st (lit "  /Supplement 0\n" ++ b) = run (.val (.num 0) :: .val (.name (lit "Supplement")) :: st) b := by
  rw [run_gap lex_56]; push_lit
theorem fin_56 (st : List Entry) : run st (lit "  /Supplement 0\n") = some (.val (.num 0) :: .val (.name (lit "Supplement")) :: st) := by
  rw [run_end lex_56]; push_lit
theorem run_57 (st : List Entry) (b : Bytes) : run st (lit "/FontDescriptor " ++ b) = run (.val (.name (lit "FontDescriptor")) :: st) b := by
  rw [run_gap lex_57]; push_lit
theorem fin_57 (st : List Entry) : run st (lit "/FontDescriptor ") = some (.val (.name (lit "FontDescriptor")) :: st) := by
  rw [run_end lex_57]; push_lit
theorem run_58 (st : List Entry) (b : Bytes) : run st (lit "/Subtype /CIDFontType2\n" ++ b) = run (.val (.name (lit "CIDFontType2")) :: .val (.name (lit "Subtype")) :: st) b := by
  rw [run_gap lex_58]; push_lit
theorem fin_58 (st : List Entry) : run st (lit "/Subtype /CIDFontType2\n") = some (.val (.name (lit "CIDFontType2")) :: .val (.name (lit "Subtype")) :: st) := by
  rw [run_end lex_58]; push_lit
theorem run_59 (st : List Entry) (b : Bytes) : run st (lit "/W [" ++ b) = run (.arrOpen :: .val (.name (lit "W")) :: st) b := by
  rw [run_gap lex_59]; push_lit
theorem fin_59 (st : List Entry) : run st (lit "/W [") = some (.arrOpen :: .val (.name (lit "W")) :: st) := by
  rw [run_end lex_59]; push_lit
theorem run_60 (st : List Entry) (b : Bytes) : run st (lit "/Type /FontDescriptor\n" ++ b) = run (.val (.name (lit "FontDescriptor")) :: .val (.name (lit "Type")) :: st) b := by
  rw [run_gap lex_60]; push_lit
theorem fin_60 (st : List Entry) : run st (lit "/Type /FontDescriptor\n") = some (.val (.name (lit "FontDescriptor")) :: .val (.name (lit "Type")) :: st) := by
  rw [run_end lex_60]; push_lit
theorem run_61 (st : List Entry) (b : Bytes) : run st (lit "/Ascent " ++ b) = run (.val (.name (lit "Ascent")) :: st) b := by
  rw [run_gap lex_61]; push_lit
theorem fin_61 (st : List Entry) : run st (lit "/Ascent ") = some (.val (.name (lit "Ascent")) :: st) := by
  rw [run_end lex_61]; push_lit
theorem run_62 (st : List Entry) (b : Bytes) : run st (lit "/CapHeight " ++ b) = run (.val (.name (lit "CapHeight")) :: st) b := by
  rw [run_gap lex_62]; push_lit
theorem fin_62 (st : List Entry) : run st (lit "/CapHeight ") = some (.val (.name (lit "CapHeight")) :: st) := by
  rw [run_end lex_62]; push_lit
theorem run_63 (st : List Entry) (b : Bytes) : run st (lit "/Descent " ++ b) = run (.val (.name (lit "Descent")) :: st) b := by
  rw [run_gap lex_63]; push_lit
theorem fin_63 (st : List Entry) : run st (lit "/Descent ") = some (.val (.name (lit "Descent")) :: st) := by
  rw [run_end lex_63]; push_lit
theorem run_64 (st : List Entry) (b : Bytes) : run st (lit "/Flags " ++ b) = run (.val (.name (lit "Flags")) :: st) b := by
  rw [run_gap lex_64]; push_lit
theorem fin_64 (st : List Entry) : run st (lit "/Flags ") = some (.val (.name (lit "Flags")) :: st) := by
  rw [run_end lex_64]; push_lit
theorem run_65 (st : List Entry) (b : Bytes) : run st (lit "/FontBBox [" ++ b) = run (.arrOpen :: .val (.name (lit "FontBBox")) :: st) b := by
  rw [run_gap lex_65]; push_lit
theorem fin_65 (st : List Entry) : run st (lit "/FontBBox [") = some (.arrOpen :: .val (.name (lit "FontBBox")) :: st) := by
  rw [run_end lex_65]; push_lit
theorem run_66 (st : List Entry) (b : Bytes) : run st (lit "/FontFile2 " ++ b) = run (.val (.name (lit "FontFile2")) :: st) b := by
  rw [run_gap lex_66]; push_lit
theorem fin_66 (st : List Entry) : run st (lit "/FontFile2 ") = some (.val (.name (lit "FontFile2")) :: st) := by
  rw [run_end lex_66]; push_lit
theorem name_67 (st : List Entry) {w b : Bytes} (hw : NameChars w) (hb : Starts b = true) :
    run st (lit "/FontName /" ++ (w ++ b)) = run (.val (.name w) :: (.val (.name (lit "FontName")) :: st)) b :=
  run_name lex_67 (by push_lit) hw hb
theorem run_68 (st : List Entry) (b : Bytes) : run st (lit "/ItalicAngle " ++ b) = run (.val (.name (lit "ItalicAngle")) :: st) b := by
  rw [run_gap lex_68]; push_lit
theorem fin_68 (st : List Entry) : run st (lit "/ItalicAngle ") = some (.val (.name (lit "ItalicAngle")) :: st) := by
  rw [run_end lex_68]; push_lit
theorem run_69 (st : List Entry) (b : Bytes) : run st (lit "/StemV 0\n" ++ b) = run (.val (.num 0) :: .val (.name (lit "StemV")) :: st) b := by
  rw [run_gap lex_69]; push_lit
theorem fin_69 (st : List Entry) : run st (lit "/StemV 0\n") = some (.val (.num 0) :: .val (.name (lit "StemV")) :: st) := by
  rw [run_end lex_69]; push_lit
theorem run_70 (st : List Entry) (b : Bytes) : run st (lit "/XHeight " ++ b) = run (.val (.name (lit "XHeight")) :: st) b := by
  rw [run_gap lex_70]; push_lit
theorem fin_70 (st : List Entry) : run st (lit "/XHeight ") = some (.val (.name (lit "XHeight")) :: st) := by
  rw [run_end lex_70]; push_lit
theorem run_73 (st : List Entry) (b : Bytes) : run st (lit "\t/ColorSpace [/Indexed /DeviceRGB " ++ b) = run (.val (.name (lit "DeviceRGB")) :: .val (.name (lit "Indexed")) :: .arrOpen :: .val (.name (lit "ColorSpace")) :: st) b := by
  rw [run_gap lex_73]; push_lit
theorem fin_73 (st : List Entry) : run st (lit "\t/ColorSpace [/Indexed /DeviceRGB ") = some (.val (.name (lit "DeviceRGB")) :: .val (.name (lit "Indexed")) :: .arrOpen :: .val (.name (lit "ColorSpace")) :: st) := by
  rw [run_end lex_73]; push_lit
theorem name_74 (st : List Entry) {w b : Bytes} (hw : NameChars w) (hb : Starts b = true) :
    run st (lit "\t/ColorSpace /" ++ (w ++ b)) = run (.val (.name w) :: (.val (.name (lit "ColorSpace")) :: st)) b :=
  run_name lex_74 (by push_lit) hw hb
theorem run_75 (st : List Entry) (b : Bytes) : run st (lit "\t/Decode [1 0 1 0 1 0 1 0]\n" ++ b) = run (.val (.arr [.num 1, .num 0, .num 1, .num 0, .num 1, .num 0, .num 1, .num 0]) :: .val (.name (lit "Decode")) :: st) b := by
  rw [run_gap lex_75]; push_lit
theorem fin_75 (st : List Entry) : run st (lit "\t/Decode [1 0 1 0 1 0 1 0]\n") = some (.val (.arr [.num 1, .num 0, .num 1, .num 0, .num 1, .num 0, .num 1, .num 0]) :: .val (.name (lit "Decode")) :: st) := by
  rw [run_end lex_75]; push_lit
theorem run_76 (st : List Entry) (b : Bytes) : run st (lit "\t/Type /XObject\n" ++ b) = run (.val (.name (lit "XObject")) :: .val (.name (lit "Type")) :: st) b := by
  rw [run_gap lex_76]; push_lit
theorem fin_76 (st : List Entry) : run st (lit "\t/Type /XObject\n") = some (.val (.name (lit "XObject")) :: .val (.name (lit "Type")) :: st) := by
  rw [run_end lex_76]; push_lit
theorem run_77 (st : List Entry) (b : Bytes) : run st (lit "\t/Subtype /Image\n" ++ b) = run (.val (.name (lit "Image")) :: .val (.name (lit "Subtype")) :: st) b := by
  rw [run_gap lex_77]; push_lit
theorem fin_77 (st : List Entry) : run st (lit "\t/Subtype /Image\n") = some (.val (.name (lit "Image")) :: .val (.name (lit "Subtype")) :: st) := by
  rw [run_end lex_77]; push_lit
theorem run_78 (st : List Entry) (b : Bytes) : run st (lit "\t/Width " ++ b) = run (.val (.name (lit "Width")) :: st) b := by
  rw [run_gap lex_78]; push_lit
theorem fin_78 (st : List Entry) : run st (lit "\t/Width ") = some (.val (.name (lit "Width")) :: st) := by
  rw [run_end lex_78]; push_lit
theorem run_79 (st : List Entry) (b : Bytes) : run st (lit "\t/Height " ++ b) = run (.val (.name (lit "Height")) :: st) b := by
  rw [run_gap lex_79]; push_lit
theorem fin_79 (st : List Entry) : run st (lit "\t/Height ") = some (.val (.name (lit "Height")) :: st) := by
  rw [run_end lex_79]; push_lit
theorem run_80 (st : List Entry) (b : Bytes) : run st (lit "\t/BitsPerComponent " ++ b) = run (.val (.name (lit "BitsPerComponent")) :: st) b := by
  rw [run_gap lex_80]; push_lit
theorem fin_80 (st : List Entry) : run st (lit "\t/BitsPerComponent ") = some (.val (.name (lit "BitsPerComponent")) :: st) := by
  rw [run_end lex_80]; push_lit
theorem name_81 (st : List Entry) {w b : Bytes} (hw : NameChars w) (hb : Starts b = true) :
    run st (lit "\t/Filter /" ++ (w ++ b)) = run (.val (.name w) :: (.val (.name (lit "Filter")) :: st)) b :=
  run_name lex_81 (by push_lit) hw hb
theorem run_82 (st : List Entry) (b : Bytes) : run st (lit "\t/DecodeParms <<\n" ++ b) = run (.dictOpen :: .val (.name (lit "DecodeParms")) :: st) b := by
  rw [run_gap lex_82]; push_lit
theorem fin_82 (st : List Entry) : run st (lit "\t/DecodeParms <<\n") = some (.dictOpen :: .val (.name (lit "DecodeParms")) :: st) := by
  rw [run_end lex_82]; push_lit
theorem run_83 (st : List Entry) (b : Bytes) : run st (lit "\t\t/Predictor 15\n" ++ b) = run (.val (.num 15) :: .val (.name (lit "Predictor")) :: st) b := by
  rw [run_gap lex_83]; push_lit
theorem fin_83 (st : List Entry) : run st (lit "\t\t/Predictor 15\n") = some (.val (.num 15) :: .val (.name (lit "Predictor")) :: st) := by
  rw [run_end lex_83]; push_lit
theorem run_84 (st : List Entry) (b : Bytes) : run st (lit "\t\t/Colors 1\n" ++ b) = run (.val (.num 1) :: .val (.name (lit "Colors")) :: st) b := by
  rw [run_gap lex_84]; push_lit
theorem fin_84 (st : List Entry) : run st (lit "\t\t/Colors 1\n") = some (.val (.num 1) :: .val (.name (lit "Colors")) :: st) := by
  rw [run_end lex_84]; push_lit
theorem run_85 (st : List Entry) (b : Bytes) : run st (lit "\t\t/BitsPerComponent 8\n" ++ b) = run (.val (.num 8) :: .val (.name (lit "BitsPerComponent")) :: st) b := by
  rw [run_gap lex_85]; push_lit
theorem fin_85 (st : List Entry) : run st (lit "\t\t/BitsPerComponent 8\n") = some (.val (.num 8) :: .val (.name (lit "BitsPerComponent")) :: st) := by
  rw [run_end lex_85]; push_lit
theorem run_86 (st : List Entry) (b : Bytes) : run st (lit "\t\t/Columns " ++ b) = run (.val (.name (lit "Columns")) :: st) b := by
  rw [run_gap lex_86]; push_lit
theorem fin_86 (st : List Entry) : run st (lit "\t\t/Columns ") = some (.val (.name (lit "Columns")) :: st) := by
  rw [run_end lex_86]; push_lit
theorem run_87 (st : List Entry) (b : Bytes) : run st (lit "\t/DecodeParms <<" ++ b) = run (.dictOpen :: .val (.name (lit "DecodeParms")) :: st) b := by
  rw [run_gap lex_87]; push_lit
theorem fin_87 (st : List Entry) : run st (lit "\t/DecodeParms <<") = some (.dictOpen :: .val (.name (lit "DecodeParms")) :: st) := by
  rw [run_end lex_87]; push_lit
theorem run_88 (st : List Entry) (b : Bytes) : run st (lit "/Predictor 15 /Colors  " ++ b) = run (.val (.name (lit "Colors")) :: .val (.num 15) :: .val (.name (lit "Predictor")) :: st) b := by
  rw [run_gap lex_88]; push_lit
theorem fin_88 (st : List Entry) : run st (lit "/Predictor 15 /Colors  ") = some (.val (.name (lit "Colors")) :: .val (.num 15) :: .val (.name (lit "Predictor")) :: st) := by
  rw [run_end lex_88]; push_lit
theorem run_89 (st : List Entry) (b : Bytes) : run st (lit " /BitsPerComponent " ++ b) = run (.val (.name (lit "BitsPerComponent")) :: st) b := by
  rw [run_gap lex_89]; push_lit
theorem fin_89 (st : List Entry) : run st (lit " /BitsPerComponent ") = some (.val (.name (lit "BitsPerComponent")) :: st) := by
  rw [run_end lex_89]; push_lit
theorem run_90 (st : List Entry) (b : Bytes) : run st (lit " /Columns " ++ b) = run (.val (.name (lit "Columns")) :: st) b := by
  rw [run_gap lex_90]; push_lit
theorem fin_90 (st : List Entry) : run st (lit " /Columns ") = some (.val (.name (lit "Columns")) :: st) := by
  rw [run_end lex_90]; push_lit
theorem run_91 (st : List Entry) (b : Bytes) : run st (lit "\t/Mask [" ++ b) = run (.arrOpen :: .val (.name (lit "Mask")) :: st) b := by
  rw [run_gap lex_91]; push_lit
theorem fin_91 (st : List Entry) : run st (lit "\t/Mask [") = some (.arrOpen :: .val (.name (lit "Mask")) :: st) := by
  rw [run_end lex_91]; push_lit
theorem run_92 (st : List Entry) (b : Bytes) : run st (lit "\t]\n" ++ b) = (closeArr [] st).bind fun st => run st b := by
  rw [run_gap lex_92]; push_lit
theorem fin_92 (st : List Entry) : run st (lit "\t]\n") = (closeArr [] st).bind fun st => some st := by
  rw [run_end lex_92]; push_lit
theorem run_93 (st : List Entry) (b : Bytes) : run st (lit "\t/SMask " ++ b) = run (.val (.name (lit "SMask")) :: st) b := by
  rw [run_gap lex_93]; push_lit
theorem fin_93 (st : List Entry) : run st (lit "\t/SMask ") = some (.val (.name (lit "SMask")) :: st) := by
  rw [run_end lex_93]; push_lit
theorem run_94 (st : List Entry) (b : Bytes) : run st (lit "/Predictor 15 /Colors 1 /BitsPerComponent 8 /Columns " ++ b) = run (.val (.name (lit "Columns")) :: .val (.num 8) :: .val (.name (lit "BitsPerComponent")) :: .val (.num 1) :: .val (.name (lit "Colors")) :: .val (.num 15) :: .val (.name (lit "Predictor")) :: st) b := by
  rw [run_gap lex_94]; push_lit
theorem fin_94 (st : List Entry) : run st (lit "/Predictor 15 /Colors 1 /BitsPerComponent 8 /Columns ") = some (.val (.name (lit "Columns")) :: .val (.num 8) :: .val (.name (lit "BitsPerComponent")) :: .val (.num 1) :: .val (.name (lit "Colors")) :: .val (.num 15) :: .val (.name (lit "Predictor")) :: st) := by
  rw [run_end lex_94]; push_lit
theorem run_95 (st : List Entry) (b : Bytes) : run st (lit "\t/Type /ExtGState\n" ++ b) = run (.val (.name (lit "ExtGState")) :: .val (.name (lit "Type")) :: st) b := by
  rw [run_gap lex_95]; push_lit
theorem fin_95 (st : List Entry) : run st (lit "\t/Type /ExtGState\n") = some (.val (.name (lit "ExtGState")) :: .val (.name (lit "Type")) :: st) := by
  rw [run_end lex_95]; push_lit
theorem run_96 (st : List Entry) (b : Bytes) : run st (lit "\t/ca " ++ b) = run (.val (.name (lit "ca")) :: st) b := by
  rw [run_gap lex_96]; push_lit
theorem fin_96 (st : List Entry) : run st (lit "\t/ca ") = some (.val (.name (lit "ca")) :: st) := by
  rw [run_end lex_96]; push_lit
theorem run_97 (st : List Entry) (b : Bytes) : run st (lit "\t/CA " ++ b) = run (.val (.name (lit "CA")) :: st) b := by
  rw [run_gap lex_97]; push_lit
theorem fin_97 (st : List Entry) : run st (lit "\t/CA ") = some (.val (.name (lit "CA")) :: st) := by
  rw [run_end lex_97]; push_lit
theorem name_98 (st : List Entry) {w b : Bytes} (hw : NameChars w) (hb : Starts b = true) :
    run st (lit "\t/BM /" ++ (w ++ b)) = run (.val (.name w) :: (.val (.name (lit "BM")) :: st)) b :=
  run_name lex_98 (by push_lit) hw hb
theorem run_99 (st : List Entry) (b : Bytes) : run st (lit "\t/Type /Mask\n" ++ b) = run (.val (.name (lit "Mask")) :: .val (.name (lit "Type")) :: st) b := by
  rw [run_gap lex_99]; push_lit
theorem fin_99 (st : List Entry) : run st (lit "\t/Type /Mask\n") = some (.val (.name (lit "Mask")) :: .val (.name (lit "Type")) :: st) := by
  rw [run_end lex_99]; push_lit
theorem run_100 (st : List Entry) (b : Bytes) : run st (lit "\t/S /Luminosity\n" ++ b) = run (.val (.name (lit "Luminosity")) :: .val (.name (lit "S")) :: st) b := by
  rw [run_gap lex_100]; push_lit
theorem fin_100 (st : List Entry) : run st (lit "\t/S /Luminosity\n") = some (.val (.name (lit "Luminosity")) :: .val (.name (lit "S")) :: st) := by
  rw [run_end lex_100]; push_lit
theorem run_101 (st : List Entry) (b : Bytes) : run st (lit "\t/G " ++ b) = run (.val (.name (lit "G")) :: st) b := by
  rw [run_gap lex_101]; push_lit
theorem fin_101 (st : List Entry) : run st (lit "\t/G ") = some (.val (.name (lit "G")) :: st) := by
  rw [run_end lex_101]; push_lit
theorem run_102 (st : List Entry) (b : Bytes) : run st (lit "\t/FormType 1\n" ++ b) = run (.val (.num 1) :: .val (.name (lit "FormType")) :: st) b := by
  rw [run_gap lex_102]; push_lit
theorem fin_102 (st : List Entry) : run st (lit "\t/FormType 1\n") = some (.val (.num 1) :: .val (.name (lit "FormType")) :: st) := by
  rw [run_end lex_102]; push_lit
theorem run_103 (st : List Entry) (b : Bytes) : run st (lit "\t/Subtype /Form\n" ++ b) = run (.val (.name (lit "Form")) :: .val (.name (lit "Subtype")) :: st) b := by
  rw [run_gap lex_103]; push_lit
theorem fin_103 (st : List Entry) : run st (lit "\t/Subtype /Form\n") = some (.val (.name (lit "Form")) :: .val (.name (lit "Subtype")) :: st) := by
  rw [run_end lex_103]; push_lit
theorem run_104 (st : List Entry) (b : Bytes) : run st (lit "\t/Matrix [1 0 0 1 0 0]\n" ++ b) = run (.val (.arr [.num 1, .num 0, .num 0, .num 1, .num 0, .num 0]) :: .val (.name (lit "Matrix")) :: st) b := by
  rw [run_gap lex_104]; push_lit
theorem fin_104 (st : List Entry) : run st (lit "\t/Matrix [1 0 0 1 0 0]\n") = some (.val (.arr [.num 1, .num 0, .num 0, .num 1, .num 0, .num 0]) :: .val (.name (lit "Matrix")) :: st) := by
  rw [run_end lex_104]; push_lit
theorem run_105 (st : List Entry) (b : Bytes) : run st (lit "\t/BBox [" ++ b) = run (.arrOpen :: .val (.name (lit "BBox")) :: st) b := by
  rw [run_gap lex_105]; push_lit
theorem fin_105 (st : List Entry) : run st (lit "\t/BBox [") = some (.arrOpen :: .val (.name (lit "BBox")) :: st) := by
  rw [run_end lex_105]; push_lit
-- by hand: 106 lit "\t/Group<</CS /DeviceGray /S /Transparency>>\n"
theorem run_107 (st : List Entry) (b : Bytes) : run st (lit "<</Type /Annot /Subtype /Link /Rect [" ++ b) = run (.arrOpen :: .val (.name (lit "Rect")) :: .val (.name (lit "Link")) :: .val (.name (lit "Subtype")) :: .val (.name (lit "Annot")) :: .val (.name (lit "Type")) :: .dictOpen :: st) b := by
  rw [run_gap lex_107]; push_lit
theorem fin_107 (st : List Entry) : run st (lit "<</Type /Annot /Subtype /Link /Rect [") = some (.arrOpen :: .val (.name (lit "Rect")) :: .val (.name (lit "Link")) :: .val (.name (lit "Subtype")) :: .val (.name (lit "Annot")) :: .val (.name (lit "Type")) :: .dictOpen :: st) := by
  rw [run_end lex_107]; push_lit
theorem run_108 (st : List Entry) (b : Bytes) : run st (lit "] /Border [0 0 0] " ++ b) = (closeArr [] st).bind fun st => run (.val (.arr [.num 0, .num 0, .num 0]) :: .val (.name (lit "Border")) :: st) b := by
  rw [run_gap lex_108]; push_lit
theorem fin_108 (st : List Entry) : run st (lit "] /Border [0 0 0] ") = (closeArr [] st).bind fun st => some (.val (.arr [.num 0, .num 0, .num 0]) :: .val (.name (lit "Border")) :: st) := by
  rw [run_end lex_108]; push_lit
theorem str_109 (st : List Entry) {w b : Bytes} :
    run st (lit "/A <</S /URI /URI (" ++ (Escape.escape w ++ 41 :: b)) = run (.val (.str w) :: (.val (.name (lit "URI")) :: .val (.name (lit "URI")) :: .val (.name (lit "S")) :: .dictOpen :: .val (.name (lit "A")) :: st)) b :=
  run_str lex_109 (by push_lit)
theorem run_110 (st : List Entry) (b : Bytes) : run st (lit "/Dest [" ++ b) = run (.arrOpen :: .val (.name (lit "Dest")) :: st) b := by
  rw [run_gap lex_110]; push_lit
theorem fin_110 (st : List Entry) : run st (lit "/Dest [") = some (.arrOpen :: .val (.name (lit "Dest")) :: st) := by
  rw [run_end lex_110]; push_lit
theorem run_111 (st : List Entry) (b : Bytes) : run st (lit " /XYZ 0 " ++ b) = run (.val (.num 0) :: .val (.name (lit "XYZ")) :: st) b := by
  rw [run_gap lex_111]; push_lit
theorem fin_111 (st : List Entry) : run st (lit " /XYZ 0 ") = some (.val (.num 0) :: .val (.name (lit "XYZ")) :: st) := by
  rw [run_end lex_111]; push_lit
theorem run_112 (st : List Entry) (b : Bytes) : run st (lit " null]>>\n" ++ b) = (closeArr [.null] st).bind fun st => (closeDict [] st).bind fun st => run st b := by
  rw [run_gap lex_112]; push_lit
theorem fin_112 (st : List Entry) : run st (lit " null]>>\n") = (closeArr [.null] st).bind fun st => (closeDict [] st).bind fun st => some st := by
  rw [run_end lex_112]; push_lit
theorem name_113 (st : List Entry) {w b : Bytes} (hw : NameChars w) (hb : Starts b = true) :
    run st (lit "[ /Separation /" ++ (w ++ b)) = run (.val (.name w) :: (.val (.name (lit "Separation")) :: .arrOpen :: st)) b :=
  run_name lex_113 (by push_lit) hw hb
theorem run_114 (st : List Entry) (b : Bytes) : run st (lit " /DeviceRGB\n" ++ b) = run (.val (.name (lit "DeviceRGB")) :: st) b := by
  rw [run_gap lex_114]; push_lit
theorem fin_114 (st : List Entry) : run st (lit " /DeviceRGB\n") = some (.val (.name (lit "DeviceRGB")) :: st) := by
  rw [run_end lex_114]; push_lit
theorem run_115 (st : List Entry) (b : Bytes) : run st (lit "\t\t<< \n" ++ b) = run (.dictOpen :: st) b := by
  rw [run_gap lex_115]; push_lit
theorem fin_115 (st : List Entry) : run st (lit "\t\t<< \n") = some (.dictOpen :: st) := by
  rw [run_end lex_115]; push_lit
theorem run_116 (st : List Entry) (b : Bytes) : run st (lit "\t\t\t/FunctionType 2\n" ++ b) = run (.val (.num 2) :: .val (.name (lit "FunctionType")) :: st) b := by
  rw [run_gap lex_116]; push_lit
theorem fin_116 (st : List Entry) : run st (lit "\t\t\t/FunctionType 2\n") = some (.val (.num 2) :: .val (.name (lit "FunctionType")) :: st) := by
  rw [run_end lex_116]; push_lit
theorem run_117 (st : List Entry) (b : Bytes) : run st (lit "\t\t\t/Domain [0 1]\n" ++ b) = run (.val (.arr [.num 0, .num 1]) :: .val (.name (lit "Domain")) :: st) b := by
  rw [run_gap lex_117]; push_lit
theorem fin_117 (st : List Entry) : run st (lit "\t\t\t/Domain [0 1]\n") = some (.val (.arr [.num 0, .num 1]) :: .val (.name (lit "Domain")) :: st) := by
  rw [run_end lex_117]; push_lit
theorem run_118 (st : List Entry) (b : Bytes) : run st (lit "\t\t\t/C0 [0.0 0.0 0.0]\n" ++ b) = run (.val (.arr [.num 0, .num 0, .num 0]) :: .val (.name (lit "C0")) :: st) b := by
  rw [run_gap lex_118]; push_lit
theorem fin_118 (st : List Entry) : run st (lit "\t\t\t/C0 [0.0 0.0 0.0]\n") = some (.val (.arr [.num 0, .num 0, .num 0]) :: .val (.name (lit "C0")) :: st) := by
  rw [run_end lex_118]; push_lit
theorem run_119 (st : List Entry) (b : Bytes) : run st (lit "\t\t\t/C1 [" ++ b) = run (.arrOpen :: .val (.name (lit "C1")) :: st) b := by
  rw [run_gap lex_119]; push_lit
theorem fin_119 (st : List Entry) : run st (lit "\t\t\t/C1 [") = some (.arrOpen :: .val (.name (lit "C1")) :: st) := by
  rw [run_end lex_119]; push_lit
theorem run_120 (st : List Entry) (b : Bytes) : run st (lit " /DeviceCMYK\n" ++ b) = run (.val (.name (lit "DeviceCMYK")) :: st) b := by
  rw [run_gap lex_120]; push_lit
theorem fin_120 (st : List Entry) : run st (lit " /DeviceCMYK\n") = some (.val (.name (lit "DeviceCMYK")) :: st) := by
  rw [run_end lex_120]; push_lit
theorem run_121 (st : List Entry) (b : Bytes) : run st (lit "\t\t\t/C0 [0.0 0.0 0.0 0.0]\n" ++ b) = run (.val (.arr [.num 0, .num 0, .num 0, .num 0]) :: .val (.name (lit "C0")) :: st) b := by
  rw [run_gap lex_121]; push_lit
theorem fin_121 (st : List Entry) : run st (lit "\t\t\t/C0 [0.0 0.0 0.0 0.0]\n") = some (.val (.arr [.num 0, .num 0, .num 0, .num 0]) :: .val (.name (lit "C0")) :: st) := by
  rw [run_end lex_121]; push_lit
theorem run_122 (st : List Entry) (b : Bytes) : run st (lit "\t\t\t/N 1\n" ++ b) = run (.val (.num 1) :: .val (.name (lit "N")) :: st) b := by
  rw [run_gap lex_122]; push_lit
theorem fin_122 (st : List Entry) : run st (lit "\t\t\t/N 1\n") = some (.val (.num 1) :: .val (.name (lit "N")) :: st) := by
  rw [run_end lex_122]; push_lit
theorem run_123 (st : List Entry) (b : Bytes) : run st (lit "\t\t>>\n" ++ b) = (closeDict [] st).bind fun st => run st b := by
  rw [run_gap lex_123]; push_lit
theorem fin_123 (st : List Entry) : run st (lit "\t\t>>\n") = (closeDict [] st).bind fun st => some st := by
  rw [run_end lex_123]; push_lit
theorem run_124 (st : List Entry) (b : Bytes) : run st (lit "/Filter /Standard\n" ++ b) = run (.val (.name (lit "Standard")) :: .val (.name (lit "Filter")) :: st) b := by
  rw [run_gap lex_124]; push_lit
theorem fin_124 (st : List Entry) : run st (lit "/Filter /Standard\n") = some (.val (.name (lit "Standard")) :: .val (.name (lit "Filter")) :: st) := by
  rw [run_end lex_124]; push_lit
theorem run_125 (st : List Entry) (b : Bytes) : run st (lit "/V 1\n" ++ b) = run (.val (.num 1) :: .val (.name (lit "V")) :: st) b := by
  rw [run_gap lex_125]; push_lit
theorem fin_125 (st : List Entry) : run st (lit "/V 1\n") = some (.val (.num 1) :: .val (.name (lit "V")) :: st) := by
  rw [run_end lex_125]; push_lit
theorem run_126 (st : List Entry) (b : Bytes) : run st (lit "/R 2\n" ++ b) = run (.val (.num 2) :: .val (.name (lit "R")) :: st) b := by
  rw [run_gap lex_126]; push_lit
theorem fin_126 (st : List Entry) : run st (lit "/R 2\n") = some (.val (.num 2) :: .val (.name (lit "R")) :: st) := by
  rw [run_end lex_126]; push_lit
theorem str_127 (st : List Entry) {w b : Bytes} :
    run st (lit "/O (" ++ (Escape.escape w ++ 41 :: b)) = run (.val (.str w) :: (.val (.name (lit "O")) :: st)) b :=
  run_str lex_127 (by push_lit)
theorem str_128 (st : List Entry) {w b : Bytes} :
    run st (lit "/U (" ++ (Escape.escape w ++ 41 :: b)) = run (.val (.str w) :: (.val (.name (lit "U")) :: st)) b :=
  run_str lex_128 (by push_lit)
theorem run_129 (st : List Entry) (b : Bytes) : run st (lit "/P " ++ b) = run (.val (.name (lit "P")) :: st) b := by
  rw [run_gap lex_129]; push_lit
theorem fin_129 (st : List Entry) : run st (lit "/P ") = some (.val (.name (lit "P")) :: st) := by
  rw [run_end lex_129]; push_lit
-- by hand: 130 lit "/Filter/FlateDecode"
theorem run_131 (st : List Entry) (b : Bytes) : run st (lit "/Length " ++ b) = run (.val (.name (lit "Length")) :: st) b := by
  rw [run_gap lex_131]; push_lit
theorem fin_131 (st : List Entry) : run st (lit "/Length ") = some (.val (.name (lit "Length")) :: st) := by
  rw [run_end lex_131]; push_lit
-- by hand: 132 lit "stream\n"
-- by hand: 133 lit "endstream\n"
theorem run_134 (st : List Entry) (b : Bytes) : run st (lit "<<" ++ b) = run (.dictOpen :: st) b := by
  rw [run_gap lex_134]; push_lit
theorem fin_134 (st : List Entry) : run st (lit "<<") = some (.dictOpen :: st) := by
  rw [run_end lex_134]; push_lit
theorem run_135 (st : List Entry) (b : Bytes) : run st (lit "/Filter /FlateDecode\n" ++ b) = run (.val (.name (lit "FlateDecode")) :: .val (.name (lit "Filter")) :: st) b := by
  rw [run_gap lex_135]; push_lit
theorem fin_135 (st : List Entry) : run st (lit "/Filter /FlateDecode\n") = some (.val (.name (lit "FlateDecode")) :: .val (.name (lit "Filter")) :: st) := by
  rw [run_end lex_135]; push_lit
theorem run_136 (st : List Entry) (b : Bytes) : run st (lit "/Length1 " ++ b) = run (.val (.name (lit "Length1")) :: st) b := by
  rw [run_gap lex_136]; push_lit
theorem fin_136 (st : List Entry) : run st (lit "/Length1 ") = some (.val (.name (lit "Length1")) :: st) := by
  rw [run_end lex_136]; push_lit
-- by hand: 137 lit "\nendstream\n"
theorem run_138 (st : List Entry) (b : Bytes) : run st (lit "\t" ++ b) = run st b := by
  rw [run_gap lex_138]; push_lit
theorem fin_138 (st : List Entry) : run st (lit "\t") = some st := by
  rw [run_end lex_138]; push_lit
theorem run_139 (st : List Entry) (b : Bytes) : run st (lit "\n>>\n" ++ b) = (closeDict [] st).bind fun st => run st b := by
  rw [run_gap lex_139]; push_lit
theorem fin_139 (st : List Entry) : run st (lit "\n>>\n") = (closeDict [] st).bind fun st => some st := by
  rw [run_end lex_139]; push_lit

/-- Read the literals, numbers and references of a text. -/
syntax "run_simp" : tactic
set_option maxRecDepth 10000 in
macro_rules
  | `(tactic| run_simp) => `(tactic| simp only [List.append_assoc, run_dec, run_decInt, run_fixed2, run_fixed3, run_fixed6, run_ref, run_refList, run_linkList, run_nil,
  closeArr_val, closeArr_open, closeArr_onStack, closeDict_val, closeDict_onStack, Option.bind_some, Option.bind_assoc, List.append_nil,
  List.nil_append,
  starts_4, starts_4_, starts_5, starts_5_, starts_6, starts_6_, starts_7, starts_7_, starts_8, starts_8_, starts_9, starts_9_, starts_10, starts_10_, starts_11, starts_11_, starts_12, starts_12_, starts_13, starts_13_, starts_14, starts_14_, starts_15, starts_15_, starts_16, starts_16_, starts_17, starts_17_, starts_18, starts_18_, starts_19, starts_19_, starts_20, starts_20_, starts_21, starts_21_, starts_22, starts_22_, starts_23, starts_23_, starts_24, starts_24_, starts_25, starts_25_, starts_26, starts_26_, starts_27, starts_27_, starts_28, starts_28_, starts_29, starts_29_, starts_30, starts_30_, starts_31, starts_31_, starts_32, starts_32_, starts_33, starts_33_, starts_34, starts_34_, starts_35, starts_35_, starts_36, starts_36_, starts_37, starts_37_, starts_38, starts_38_, starts_39, starts_39_, starts_40, starts_40_, starts_41, starts_41_, starts_42, starts_42_, starts_43, starts_43_, starts_44, starts_44_, starts_45, starts_45_, starts_46, starts_46_, starts_47, starts_47_, starts_48, starts_48_, starts_49, starts_49_, starts_50, starts_50_, starts_51, starts_51_, starts_52, starts_52_, starts_53, starts_53_, starts_54, starts_54_, starts_55, starts_55_, starts_56, starts_56_, starts_57, starts_57_, starts_58, starts_58_, starts_59, starts_59_, starts_60, starts_60_, starts_61, starts_61_, starts_62, starts_62_, starts_63, starts_63_, starts_64, starts_64_, starts_65, starts_65_, starts_66, starts_66_, starts_67, starts_67_, starts_68, starts_68_, starts_69, starts_69_, starts_70, starts_70_, starts_73, starts_73_, starts_74, starts_74_, starts_75, starts_75_, starts_76, starts_76_, starts_77, starts_77_, starts_78, starts_78_, starts_79, starts_79_, starts_80, starts_80_, starts_81, starts_81_, starts_82, starts_82_, starts_83, starts_83_, starts_84, starts_84_, starts_85, starts_85_, starts_86, starts_86_, starts_87, starts_87_, starts_88, starts_88_, starts_89, starts_89_, starts_90, starts_90_, starts_91, starts_91_, starts_92, starts_92_, starts_93, starts_93_, starts_94, starts_94_, starts_95, starts_95_, starts_96, starts_96_, starts_97, starts_97_, starts_98, starts_98_, starts_99, starts_99_, starts_100, starts_100_, starts_101, starts_101_, starts_102, starts_102_, starts_103, starts_103_, starts_104, starts_104_, starts_105, starts_105_, starts_106, starts_106_, starts_107, starts_107_, starts_108, starts_108_, starts_109, starts_109_, starts_110, starts_110_, starts_111, starts_111_, starts_112, starts_112_, starts_113, starts_113_, starts_114, starts_114_, starts_115, starts_115_, starts_116, starts_116_, starts_117, starts_117_, starts_118, starts_118_, starts_119, starts_119_, starts_120, starts_120_, starts_121, starts_121_, starts_122, starts_122_, starts_123, starts_123_, starts_124, starts_124_, starts_125, starts_125_, starts_126, starts_126_, starts_127, starts_127_, starts_128, starts_128_, starts_129, starts_129_, starts_130, starts_130_, starts_131, starts_131_, starts_134, starts_134_, starts_135, starts_135_, starts_136, starts_136_, starts_137, starts_137_, starts_138, starts_138_, starts_139, starts_139_,
  run_5, run_6, run_7, run_8, run_9, run_10, run_11, run_12, run_13, run_14, run_15, run_16, run_17, run_18, run_19, run_20, run_21, run_22, run_23, run_24, run_25, run_26, run_27, run_28, run_29, run_30, run_31, run_32, run_33, run_34, run_35, run_38, run_39, run_40, run_41, run_42, run_43, run_44, run_46, run_47, run_48, run_49, run_50, run_51, run_52, run_53, run_54, run_55, run_56, run_57, run_58, run_59, run_60, run_61, run_62, run_63, run_64, run_65, run_66, run_68, run_69, run_70, run_73, run_75, run_76, run_77, run_78, run_79, run_80, run_82, run_83, run_84, run_85, run_86, run_87, run_88, run_89, run_90, run_91, run_92, run_93, run_94, run_95, run_96, run_97, run_99, run_100, run_101, run_102, run_103, run_104, run_105, run_107, run_108, run_110, run_111, run_112, run_114, run_115, run_116, run_117, run_118, run_119, run_120, run_121, run_122, run_123, run_124, run_125, run_126, run_129, run_131, run_134, run_135, run_136, run_138, run_139,
  fin_5, fin_6, fin_7, fin_8, fin_9, fin_10, fin_11, fin_12, fin_13, fin_14, fin_15, fin_16, fin_17, fin_18, fin_19, fin_20, fin_21, fin_22, fin_23, fin_24, fin_25, fin_26, fin_27, fin_28, fin_29, fin_30, fin_31, fin_32, fin_33, fin_34, fin_35, fin_38, fin_39, fin_40, fin_41, fin_42, fin_43, fin_44, fin_46, fin_47, fin_48, fin_49, fin_50, fin_51, fin_52, fin_53, fin_54, fin_55, fin_56, fin_57, fin_58, fin_59, fin_60, fin_61, fin_62, fin_63, fin_64, fin_65, fin_66, fin_68, fin_69, fin_70, fin_73, fin_75, fin_76, fin_77, fin_78, fin_79, fin_80, fin_82, fin_83, fin_84, fin_85, fin_86, fin_87, fin_88, fin_89, fin_90, fin_91, fin_92, fin_93, fin_94, fin_95, fin_96, fin_97, fin_99, fin_100, fin_101, fin_102, fin_103, fin_104, fin_105, fin_107, fin_108, fin_110, fin_111, fin_112, fin_114, fin_115, fin_116, fin_117, fin_118, fin_119, fin_120, fin_121, fin_122, fin_123, fin_124, fin_125, fin_126, fin_129, fin_131, fin_134, fin_135, fin_136, fin_138, fin_139])


end Verif.PdfObject
