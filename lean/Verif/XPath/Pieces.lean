import Verif.XPath.SyntaxLemmas
import Verif.XPath.EvalLemmas
import Verif.Spec.Search
/-!
# Every query template read as a path
-/
namespace Verif.XPath
open Verif Spec

/-- The predicate of a search value. -/
def testEx (rg : Bool) (fl v : Str) (p : Prim) : Ex := if rg then .test p v fl else .eq p (.lit v)

/-- Down a path of tags, a predicate, and back up. -/
def downUp : List Str → Ex → List Instr
  | [], e => [.filter e]
  | t :: p, e => .child t :: downUp p e ++ [.parent]

/-- The instructions that test the values at a place. -/
def placeInstrs (rg : Bool) (fl v : Str) : Place → List Instr
  | .field k => .child "String".toList :: (downUp ["Key".toList] (.eq .text (.lit k)) ++
      downUp ["Value".toList] (testEx rg fl v .text)) ++ [.parent]
  | .sub p => downUp p (testEx rg fl v .text)
  | .ref => downUp ["Value".toList] (testEx rg fl v (.attr "Ref".toList))

/-- `entryPlace` with `uuid`. -/
def entryPlace' (k : Str) : Option Place :=
  if k = "uuid".toList then some (.sub ["UUID".toList]) else entryPlace k

/-- `groupPlace` with `uuid`. -/
def groupPlace' (k : Str) : Option Place :=
  if k = "uuid".toList then some (.sub ["UUID".toList]) else groupPlace k

theorem piece_entry_ex_title {v : Str} (hv : Plain v) (fl : Str) :
    Piece (fmt "/String/Key[text()=\"Title\"]/../Value[text()=\"{}\"]/../..".toList [v] fl) (placeInstrs false fl v (.field "Title".toList)) :=
  piece_value hv (A := "/String/Key[text()=\"Title\"]/../Value[text()=\"".toList) (B := "\"]/../..".toList)
    (out := [.slash, .name "String".toList, .slash, .name "Key".toList, .lbr, .name "text".toList, .lpar, .rpar, .eq, .lit "Title".toList, .rbr, .slash, .ddot, .slash, .name "Value".toList, .lbr, .name "text".toList, .lpar, .rpar, .eq])
    (ts := [.slash, .name "String".toList, .slash, .name "Key".toList, .lbr, .name "text".toList, .lpar, .rpar, .eq, .lit "Title".toList, .rbr, .slash, .ddot, .slash, .name "Value".toList, .lbr, .name "text".toList, .lpar, .rpar, .eq, .lit v, .rbr, .slash, .ddot, .slash, .ddot]) rfl
    ⟨_, _, rfl, Or.inl rfl⟩ rfl rfl rfl

theorem piece_entry_ex_username {v : Str} (hv : Plain v) (fl : Str) :
    Piece (fmt "/String/Key[text()=\"UserName\"]/../Value[text()=\"{}\"]/../..".toList [v] fl) (placeInstrs false fl v (.field "UserName".toList)) :=
  piece_value hv (A := "/String/Key[text()=\"UserName\"]/../Value[text()=\"".toList) (B := "\"]/../..".toList)
    (out := [.slash, .name "String".toList, .slash, .name "Key".toList, .lbr, .name "text".toList, .lpar, .rpar, .eq, .lit "UserName".toList, .rbr, .slash, .ddot, .slash, .name "Value".toList, .lbr, .name "text".toList, .lpar, .rpar, .eq])
    (ts := [.slash, .name "String".toList, .slash, .name "Key".toList, .lbr, .name "text".toList, .lpar, .rpar, .eq, .lit "UserName".toList, .rbr, .slash, .ddot, .slash, .name "Value".toList, .lbr, .name "text".toList, .lpar, .rpar, .eq, .lit v, .rbr, .slash, .ddot, .slash, .ddot]) rfl
    ⟨_, _, rfl, Or.inl rfl⟩ rfl rfl rfl

theorem piece_entry_ex_password {v : Str} (hv : Plain v) (fl : Str) :
    Piece (fmt "/String/Key[text()=\"Password\"]/../Value[text()=\"{}\"]/../..".toList [v] fl) (placeInstrs false fl v (.field "Password".toList)) :=
  piece_value hv (A := "/String/Key[text()=\"Password\"]/../Value[text()=\"".toList) (B := "\"]/../..".toList)
    (out := [.slash, .name "String".toList, .slash, .name "Key".toList, .lbr, .name "text".toList, .lpar, .rpar, .eq, .lit "Password".toList, .rbr, .slash, .ddot, .slash, .name "Value".toList, .lbr, .name "text".toList, .lpar, .rpar, .eq])
    (ts := [.slash, .name "String".toList, .slash, .name "Key".toList, .lbr, .name "text".toList, .lpar, .rpar, .eq, .lit "Password".toList, .rbr, .slash, .ddot, .slash, .name "Value".toList, .lbr, .name "text".toList, .lpar, .rpar, .eq, .lit v, .rbr, .slash, .ddot, .slash, .ddot]) rfl
    ⟨_, _, rfl, Or.inl rfl⟩ rfl rfl rfl

theorem piece_entry_ex_url {v : Str} (hv : Plain v) (fl : Str) :
    Piece (fmt "/String/Key[text()=\"URL\"]/../Value[text()=\"{}\"]/../..".toList [v] fl) (placeInstrs false fl v (.field "URL".toList)) :=
  piece_value hv (A := "/String/Key[text()=\"URL\"]/../Value[text()=\"".toList) (B := "\"]/../..".toList)
    (out := [.slash, .name "String".toList, .slash, .name "Key".toList, .lbr, .name "text".toList, .lpar, .rpar, .eq, .lit "URL".toList, .rbr, .slash, .ddot, .slash, .name "Value".toList, .lbr, .name "text".toList, .lpar, .rpar, .eq])
    (ts := [.slash, .name "String".toList, .slash, .name "Key".toList, .lbr, .name "text".toList, .lpar, .rpar, .eq, .lit "URL".toList, .rbr, .slash, .ddot, .slash, .name "Value".toList, .lbr, .name "text".toList, .lpar, .rpar, .eq, .lit v, .rbr, .slash, .ddot, .slash, .ddot]) rfl
    ⟨_, _, rfl, Or.inl rfl⟩ rfl rfl rfl

theorem piece_entry_ex_notes {v : Str} (hv : Plain v) (fl : Str) :
    Piece (fmt "/String/Key[text()=\"Notes\"]/../Value[text()=\"{}\"]/../..".toList [v] fl) (placeInstrs false fl v (.field "Notes".toList)) :=
  piece_value hv (A := "/String/Key[text()=\"Notes\"]/../Value[text()=\"".toList) (B := "\"]/../..".toList)
    (out := [.slash, .name "String".toList, .slash, .name "Key".toList, .lbr, .name "text".toList, .lpar, .rpar, .eq, .lit "Notes".toList, .rbr, .slash, .ddot, .slash, .name "Value".toList, .lbr, .name "text".toList, .lpar, .rpar, .eq])
    (ts := [.slash, .name "String".toList, .slash, .name "Key".toList, .lbr, .name "text".toList, .lpar, .rpar, .eq, .lit "Notes".toList, .rbr, .slash, .ddot, .slash, .name "Value".toList, .lbr, .name "text".toList, .lpar, .rpar, .eq, .lit v, .rbr, .slash, .ddot, .slash, .ddot]) rfl
    ⟨_, _, rfl, Or.inl rfl⟩ rfl rfl rfl

theorem piece_entry_ex_uuid {v : Str} (hv : Plain v) (fl : Str) :
    Piece (fmt "/UUID[text()=\"{}\"]/..".toList [v] fl) (placeInstrs false fl v (.sub ["UUID".toList])) :=
  piece_value hv (A := "/UUID[text()=\"".toList) (B := "\"]/..".toList)
    (out := [.slash, .name "UUID".toList, .lbr, .name "text".toList, .lpar, .rpar, .eq])
    (ts := [.slash, .name "UUID".toList, .lbr, .name "text".toList, .lpar, .rpar, .eq, .lit v, .rbr, .slash, .ddot]) rfl
    ⟨_, _, rfl, Or.inl rfl⟩ rfl rfl rfl

theorem piece_entry_ex_autotype_sequence {v : Str} (hv : Plain v) (fl : Str) :
    Piece (fmt "/AutoType/DefaultSequence[text()=\"{}\"]/../..".toList [v] fl) (placeInstrs false fl v (.sub ["AutoType".toList, "DefaultSequence".toList])) :=
  piece_value hv (A := "/AutoType/DefaultSequence[text()=\"".toList) (B := "\"]/../..".toList)
    (out := [.slash, .name "AutoType".toList, .slash, .name "DefaultSequence".toList, .lbr, .name "text".toList, .lpar, .rpar, .eq])
    (ts := [.slash, .name "AutoType".toList, .slash, .name "DefaultSequence".toList, .lbr, .name "text".toList, .lpar, .rpar, .eq, .lit v, .rbr, .slash, .ddot, .slash, .ddot]) rfl
    ⟨_, _, rfl, Or.inl rfl⟩ rfl rfl rfl

theorem piece_entry_ex_autotype_window {v : Str} (hv : Plain v) (fl : Str) :
    Piece (fmt "/AutoType/Association/Window[text()=\"{}\"]/../../..".toList [v] fl) (placeInstrs false fl v (.sub ["AutoType".toList, "Association".toList, "Window".toList])) :=
  piece_value hv (A := "/AutoType/Association/Window[text()=\"".toList) (B := "\"]/../../..".toList)
    (out := [.slash, .name "AutoType".toList, .slash, .name "Association".toList, .slash, .name "Window".toList, .lbr, .name "text".toList, .lpar, .rpar, .eq])
    (ts := [.slash, .name "AutoType".toList, .slash, .name "Association".toList, .slash, .name "Window".toList, .lbr, .name "text".toList, .lpar, .rpar, .eq, .lit v, .rbr, .slash, .ddot, .slash, .ddot, .slash, .ddot]) rfl
    ⟨_, _, rfl, Or.inl rfl⟩ rfl rfl rfl

theorem piece_entry_ex_autotype_enabled {v : Str} (hv : Plain v) (fl : Str) :
    Piece (fmt "/AutoType/Enabled[text()=\"{}\"]/../..".toList [v] fl) (placeInstrs false fl v (.sub ["AutoType".toList, "Enabled".toList])) :=
  piece_value hv (A := "/AutoType/Enabled[text()=\"".toList) (B := "\"]/../..".toList)
    (out := [.slash, .name "AutoType".toList, .slash, .name "Enabled".toList, .lbr, .name "text".toList, .lpar, .rpar, .eq])
    (ts := [.slash, .name "AutoType".toList, .slash, .name "Enabled".toList, .lbr, .name "text".toList, .lpar, .rpar, .eq, .lit v, .rbr, .slash, .ddot, .slash, .ddot]) rfl
    ⟨_, _, rfl, Or.inl rfl⟩ rfl rfl rfl

theorem piece_entry_ex_otp {v : Str} (hv : Plain v) (fl : Str) :
    Piece (fmt "/String/Key[text()=\"otp\"]/../Value[text()=\"{}\"]/../..".toList [v] fl) (placeInstrs false fl v (.field "otp".toList)) :=
  piece_value hv (A := "/String/Key[text()=\"otp\"]/../Value[text()=\"".toList) (B := "\"]/../..".toList)
    (out := [.slash, .name "String".toList, .slash, .name "Key".toList, .lbr, .name "text".toList, .lpar, .rpar, .eq, .lit "otp".toList, .rbr, .slash, .ddot, .slash, .name "Value".toList, .lbr, .name "text".toList, .lpar, .rpar, .eq])
    (ts := [.slash, .name "String".toList, .slash, .name "Key".toList, .lbr, .name "text".toList, .lpar, .rpar, .eq, .lit "otp".toList, .rbr, .slash, .ddot, .slash, .name "Value".toList, .lbr, .name "text".toList, .lpar, .rpar, .eq, .lit v, .rbr, .slash, .ddot, .slash, .ddot]) rfl
    ⟨_, _, rfl, Or.inl rfl⟩ rfl rfl rfl

theorem piece_entry_re_title {v fl : Str} (hv : Plain v) (hf : Plain fl) :
    Piece (fmt "/String/Key[text()=\"Title\"]/../Value[re:test(text(), \"{}\", \"{flags}\")]/../..".toList [v] fl) (placeInstrs true fl v (.field "Title".toList)) :=
  piece_value2 hv hf (A := "/String/Key[text()=\"Title\"]/../Value[re:test(text(), \"".toList) (B := "\", \"".toList) (C := "\")]/../..".toList)
    (out := [.slash, .name "String".toList, .slash, .name "Key".toList, .lbr, .name "text".toList, .lpar, .rpar, .eq, .lit "Title".toList, .rbr, .slash, .ddot, .slash, .name "Value".toList, .lbr, .name "re:test".toList, .lpar, .name "text".toList, .lpar, .rpar, .comma]) (out2 := [.slash, .name "String".toList, .slash, .name "Key".toList, .lbr, .name "text".toList, .lpar, .rpar, .eq, .lit "Title".toList, .rbr, .slash, .ddot, .slash, .name "Value".toList, .lbr, .name "re:test".toList, .lpar, .name "text".toList, .lpar, .rpar, .comma, .lit v, .comma])
    (ts := [.slash, .name "String".toList, .slash, .name "Key".toList, .lbr, .name "text".toList, .lpar, .rpar, .eq, .lit "Title".toList, .rbr, .slash, .ddot, .slash, .name "Value".toList, .lbr, .name "re:test".toList, .lpar, .name "text".toList, .lpar, .rpar, .comma, .lit v, .comma, .lit fl, .rpar, .rbr, .slash, .ddot, .slash, .ddot]) rfl
    ⟨_, _, rfl, Or.inl rfl⟩ rfl rfl rfl rfl

theorem piece_entry_re_username {v fl : Str} (hv : Plain v) (hf : Plain fl) :
    Piece (fmt "/String/Key[text()=\"UserName\"]/../Value[re:test(text(), \"{}\", \"{flags}\")]/../..".toList [v] fl) (placeInstrs true fl v (.field "UserName".toList)) :=
  piece_value2 hv hf (A := "/String/Key[text()=\"UserName\"]/../Value[re:test(text(), \"".toList) (B := "\", \"".toList) (C := "\")]/../..".toList)
    (out := [.slash, .name "String".toList, .slash, .name "Key".toList, .lbr, .name "text".toList, .lpar, .rpar, .eq, .lit "UserName".toList, .rbr, .slash, .ddot, .slash, .name "Value".toList, .lbr, .name "re:test".toList, .lpar, .name "text".toList, .lpar, .rpar, .comma]) (out2 := [.slash, .name "String".toList, .slash, .name "Key".toList, .lbr, .name "text".toList, .lpar, .rpar, .eq, .lit "UserName".toList, .rbr, .slash, .ddot, .slash, .name "Value".toList, .lbr, .name "re:test".toList, .lpar, .name "text".toList, .lpar, .rpar, .comma, .lit v, .comma])
    (ts := [.slash, .name "String".toList, .slash, .name "Key".toList, .lbr, .name "text".toList, .lpar, .rpar, .eq, .lit "UserName".toList, .rbr, .slash, .ddot, .slash, .name "Value".toList, .lbr, .name "re:test".toList, .lpar, .name "text".toList, .lpar, .rpar, .comma, .lit v, .comma, .lit fl, .rpar, .rbr, .slash, .ddot, .slash, .ddot]) rfl
    ⟨_, _, rfl, Or.inl rfl⟩ rfl rfl rfl rfl

theorem piece_entry_re_password {v fl : Str} (hv : Plain v) (hf : Plain fl) :
    Piece (fmt "/String/Key[text()=\"Password\"]/../Value[re:test(text(), \"{}\", \"{flags}\")]/../..".toList [v] fl) (placeInstrs true fl v (.field "Password".toList)) :=
  piece_value2 hv hf (A := "/String/Key[text()=\"Password\"]/../Value[re:test(text(), \"".toList) (B := "\", \"".toList) (C := "\")]/../..".toList)
    (out := [.slash, .name "String".toList, .slash, .name "Key".toList, .lbr, .name "text".toList, .lpar, .rpar, .eq, .lit "Password".toList, .rbr, .slash, .ddot, .slash, .name "Value".toList, .lbr, .name "re:test".toList, .lpar, .name "text".toList, .lpar, .rpar, .comma]) (out2 := [.slash, .name "String".toList, .slash, .name "Key".toList, .lbr, .name "text".toList, .lpar, .rpar, .eq, .lit "Password".toList, .rbr, .slash, .ddot, .slash, .name "Value".toList, .lbr, .name "re:test".toList, .lpar, .name "text".toList, .lpar, .rpar, .comma, .lit v, .comma])
    (ts := [.slash, .name "String".toList, .slash, .name "Key".toList, .lbr, .name "text".toList, .lpar, .rpar, .eq, .lit "Password".toList, .rbr, .slash, .ddot, .slash, .name "Value".toList, .lbr, .name "re:test".toList, .lpar, .name "text".toList, .lpar, .rpar, .comma, .lit v, .comma, .lit fl, .rpar, .rbr, .slash, .ddot, .slash, .ddot]) rfl
    ⟨_, _, rfl, Or.inl rfl⟩ rfl rfl rfl rfl

theorem piece_entry_re_url {v fl : Str} (hv : Plain v) (hf : Plain fl) :
    Piece (fmt "/String/Key[text()=\"URL\"]/../Value[re:test(text(), \"{}\", \"{flags}\")]/../..".toList [v] fl) (placeInstrs true fl v (.field "URL".toList)) :=
  piece_value2 hv hf (A := "/String/Key[text()=\"URL\"]/../Value[re:test(text(), \"".toList) (B := "\", \"".toList) (C := "\")]/../..".toList)
    (out := [.slash, .name "String".toList, .slash, .name "Key".toList, .lbr, .name "text".toList, .lpar, .rpar, .eq, .lit "URL".toList, .rbr, .slash, .ddot, .slash, .name "Value".toList, .lbr, .name "re:test".toList, .lpar, .name "text".toList, .lpar, .rpar, .comma]) (out2 := [.slash, .name "String".toList, .slash, .name "Key".toList, .lbr, .name "text".toList, .lpar, .rpar, .eq, .lit "URL".toList, .rbr, .slash, .ddot, .slash, .name "Value".toList, .lbr, .name "re:test".toList, .lpar, .name "text".toList, .lpar, .rpar, .comma, .lit v, .comma])
    (ts := [.slash, .name "String".toList, .slash, .name "Key".toList, .lbr, .name "text".toList, .lpar, .rpar, .eq, .lit "URL".toList, .rbr, .slash, .ddot, .slash, .name "Value".toList, .lbr, .name "re:test".toList, .lpar, .name "text".toList, .lpar, .rpar, .comma, .lit v, .comma, .lit fl, .rpar, .rbr, .slash, .ddot, .slash, .ddot]) rfl
    ⟨_, _, rfl, Or.inl rfl⟩ rfl rfl rfl rfl

theorem piece_entry_re_notes {v fl : Str} (hv : Plain v) (hf : Plain fl) :
    Piece (fmt "/String/Key[text()=\"Notes\"]/../Value[re:test(text(), \"{}\", \"{flags}\")]/../..".toList [v] fl) (placeInstrs true fl v (.field "Notes".toList)) :=
  piece_value2 hv hf (A := "/String/Key[text()=\"Notes\"]/../Value[re:test(text(), \"".toList) (B := "\", \"".toList) (C := "\")]/../..".toList)
    (out := [.slash, .name "String".toList, .slash, .name "Key".toList, .lbr, .name "text".toList, .lpar, .rpar, .eq, .lit "Notes".toList, .rbr, .slash, .ddot, .slash, .name "Value".toList, .lbr, .name "re:test".toList, .lpar, .name "text".toList, .lpar, .rpar, .comma]) (out2 := [.slash, .name "String".toList, .slash, .name "Key".toList, .lbr, .name "text".toList, .lpar, .rpar, .eq, .lit "Notes".toList, .rbr, .slash, .ddot, .slash, .name "Value".toList, .lbr, .name "re:test".toList, .lpar, .name "text".toList, .lpar, .rpar, .comma, .lit v, .comma])
    (ts := [.slash, .name "String".toList, .slash, .name "Key".toList, .lbr, .name "text".toList, .lpar, .rpar, .eq, .lit "Notes".toList, .rbr, .slash, .ddot, .slash, .name "Value".toList, .lbr, .name "re:test".toList, .lpar, .name "text".toList, .lpar, .rpar, .comma, .lit v, .comma, .lit fl, .rpar, .rbr, .slash, .ddot, .slash, .ddot]) rfl
    ⟨_, _, rfl, Or.inl rfl⟩ rfl rfl rfl rfl

theorem piece_entry_re_uuid {v fl : Str} (hv : Plain v) (hf : Plain fl) :
    Piece (fmt "/UUID[re:test(text(), \"{}\", \"{flags}\")]/..".toList [v] fl) (placeInstrs true fl v (.sub ["UUID".toList])) :=
  piece_value2 hv hf (A := "/UUID[re:test(text(), \"".toList) (B := "\", \"".toList) (C := "\")]/..".toList)
    (out := [.slash, .name "UUID".toList, .lbr, .name "re:test".toList, .lpar, .name "text".toList, .lpar, .rpar, .comma]) (out2 := [.slash, .name "UUID".toList, .lbr, .name "re:test".toList, .lpar, .name "text".toList, .lpar, .rpar, .comma, .lit v, .comma])
    (ts := [.slash, .name "UUID".toList, .lbr, .name "re:test".toList, .lpar, .name "text".toList, .lpar, .rpar, .comma, .lit v, .comma, .lit fl, .rpar, .rbr, .slash, .ddot]) rfl
    ⟨_, _, rfl, Or.inl rfl⟩ rfl rfl rfl rfl

theorem piece_entry_re_autotype_sequence {v fl : Str} (hv : Plain v) (hf : Plain fl) :
    Piece (fmt "/AutoType/DefaultSequence[re:test(text(), \"{}\", \"{flags}\")]/../..".toList [v] fl) (placeInstrs true fl v (.sub ["AutoType".toList, "DefaultSequence".toList])) :=
  piece_value2 hv hf (A := "/AutoType/DefaultSequence[re:test(text(), \"".toList) (B := "\", \"".toList) (C := "\")]/../..".toList)
    (out := [.slash, .name "AutoType".toList, .slash, .name "DefaultSequence".toList, .lbr, .name "re:test".toList, .lpar, .name "text".toList, .lpar, .rpar, .comma]) (out2 := [.slash, .name "AutoType".toList, .slash, .name "DefaultSequence".toList, .lbr, .name "re:test".toList, .lpar, .name "text".toList, .lpar, .rpar, .comma, .lit v, .comma])
    (ts := [.slash, .name "AutoType".toList, .slash, .name "DefaultSequence".toList, .lbr, .name "re:test".toList, .lpar, .name "text".toList, .lpar, .rpar, .comma, .lit v, .comma, .lit fl, .rpar, .rbr, .slash, .ddot, .slash, .ddot]) rfl
    ⟨_, _, rfl, Or.inl rfl⟩ rfl rfl rfl rfl

theorem piece_entry_re_autotype_window {v fl : Str} (hv : Plain v) (hf : Plain fl) :
    Piece (fmt "/AutoType/Association/Window[re:test(text(), \"{}\", \"{flags}\")]/../../..".toList [v] fl) (placeInstrs true fl v (.sub ["AutoType".toList, "Association".toList, "Window".toList])) :=
  piece_value2 hv hf (A := "/AutoType/Association/Window[re:test(text(), \"".toList) (B := "\", \"".toList) (C := "\")]/../../..".toList)
    (out := [.slash, .name "AutoType".toList, .slash, .name "Association".toList, .slash, .name "Window".toList, .lbr, .name "re:test".toList, .lpar, .name "text".toList, .lpar, .rpar, .comma]) (out2 := [.slash, .name "AutoType".toList, .slash, .name "Association".toList, .slash, .name "Window".toList, .lbr, .name "re:test".toList, .lpar, .name "text".toList, .lpar, .rpar, .comma, .lit v, .comma])
    (ts := [.slash, .name "AutoType".toList, .slash, .name "Association".toList, .slash, .name "Window".toList, .lbr, .name "re:test".toList, .lpar, .name "text".toList, .lpar, .rpar, .comma, .lit v, .comma, .lit fl, .rpar, .rbr, .slash, .ddot, .slash, .ddot, .slash, .ddot]) rfl
    ⟨_, _, rfl, Or.inl rfl⟩ rfl rfl rfl rfl

theorem piece_entry_re_autotype_enabled {v fl : Str} (hv : Plain v) (hf : Plain fl) :
    Piece (fmt "/AutoType/Enabled[re:test(text(), \"{}\", \"{flags}\")]/../..".toList [v] fl) (placeInstrs true fl v (.sub ["AutoType".toList, "Enabled".toList])) :=
  piece_value2 hv hf (A := "/AutoType/Enabled[re:test(text(), \"".toList) (B := "\", \"".toList) (C := "\")]/../..".toList)
    (out := [.slash, .name "AutoType".toList, .slash, .name "Enabled".toList, .lbr, .name "re:test".toList, .lpar, .name "text".toList, .lpar, .rpar, .comma]) (out2 := [.slash, .name "AutoType".toList, .slash, .name "Enabled".toList, .lbr, .name "re:test".toList, .lpar, .name "text".toList, .lpar, .rpar, .comma, .lit v, .comma])
    (ts := [.slash, .name "AutoType".toList, .slash, .name "Enabled".toList, .lbr, .name "re:test".toList, .lpar, .name "text".toList, .lpar, .rpar, .comma, .lit v, .comma, .lit fl, .rpar, .rbr, .slash, .ddot, .slash, .ddot]) rfl
    ⟨_, _, rfl, Or.inl rfl⟩ rfl rfl rfl rfl

theorem piece_entry_re_otp {v fl : Str} (hv : Plain v) (hf : Plain fl) :
    Piece (fmt "/String/Key[text()=\"otp\"]/../Value[re:test(text(), \"{}\", \"{flags}\")]/../..".toList [v] fl) (placeInstrs true fl v (.field "otp".toList)) :=
  piece_value2 hv hf (A := "/String/Key[text()=\"otp\"]/../Value[re:test(text(), \"".toList) (B := "\", \"".toList) (C := "\")]/../..".toList)
    (out := [.slash, .name "String".toList, .slash, .name "Key".toList, .lbr, .name "text".toList, .lpar, .rpar, .eq, .lit "otp".toList, .rbr, .slash, .ddot, .slash, .name "Value".toList, .lbr, .name "re:test".toList, .lpar, .name "text".toList, .lpar, .rpar, .comma]) (out2 := [.slash, .name "String".toList, .slash, .name "Key".toList, .lbr, .name "text".toList, .lpar, .rpar, .eq, .lit "otp".toList, .rbr, .slash, .ddot, .slash, .name "Value".toList, .lbr, .name "re:test".toList, .lpar, .name "text".toList, .lpar, .rpar, .comma, .lit v, .comma])
    (ts := [.slash, .name "String".toList, .slash, .name "Key".toList, .lbr, .name "text".toList, .lpar, .rpar, .eq, .lit "otp".toList, .rbr, .slash, .ddot, .slash, .name "Value".toList, .lbr, .name "re:test".toList, .lpar, .name "text".toList, .lpar, .rpar, .comma, .lit v, .comma, .lit fl, .rpar, .rbr, .slash, .ddot, .slash, .ddot]) rfl
    ⟨_, _, rfl, Or.inl rfl⟩ rfl rfl rfl rfl

/-- Every template of `entry_xp` reads as the place it names. -/
theorem piece_entry {rg : Bool} {key t : Str} (h : (entryXp rg).lookup key = some t) (htags : key ≠ "tags".toList) (hstring : key ≠ "string".toList) :
    ∃ p, entryPlace' key = some p ∧ ∀ {v fl : Str}, Plain v → (rg = true → Plain fl) → Piece (fmt t [v] fl) (placeInstrs rg fl v p) := by
  cases rg <;> simp only [entryXp, List.lookup] at h
  · repeat' split at h
    · rename_i e; rw [eq_of_beq e]; cases h; exact ⟨_, rfl, fun {v fl} hv hf => piece_entry_ex_title hv fl⟩
    · rename_i e; rw [eq_of_beq e]; cases h; exact ⟨_, rfl, fun {v fl} hv hf => piece_entry_ex_username hv fl⟩
    · rename_i e; rw [eq_of_beq e]; cases h; exact ⟨_, rfl, fun {v fl} hv hf => piece_entry_ex_password hv fl⟩
    · rename_i e; rw [eq_of_beq e]; cases h; exact ⟨_, rfl, fun {v fl} hv hf => piece_entry_ex_url hv fl⟩
    · rename_i e; rw [eq_of_beq e]; cases h; exact ⟨_, rfl, fun {v fl} hv hf => piece_entry_ex_notes hv fl⟩
    · rename_i e; rw [eq_of_beq e]; cases h; exact ⟨_, rfl, fun {v fl} hv hf => piece_entry_ex_uuid hv fl⟩
    · rename_i e; exact absurd (eq_of_beq e) htags
    · rename_i e; exact absurd (eq_of_beq e) hstring
    · rename_i e; rw [eq_of_beq e]; cases h; exact ⟨_, rfl, fun {v fl} hv hf => piece_entry_ex_autotype_sequence hv fl⟩
    · rename_i e; rw [eq_of_beq e]; cases h; exact ⟨_, rfl, fun {v fl} hv hf => piece_entry_ex_autotype_window hv fl⟩
    · rename_i e; rw [eq_of_beq e]; cases h; exact ⟨_, rfl, fun {v fl} hv hf => piece_entry_ex_autotype_enabled hv fl⟩
    · rename_i e; rw [eq_of_beq e]; cases h; exact ⟨_, rfl, fun {v fl} hv hf => piece_entry_ex_otp hv fl⟩
    · cases h
  · repeat' split at h
    · rename_i e; rw [eq_of_beq e]; cases h; exact ⟨_, rfl, fun {v fl} hv hf => piece_entry_re_title hv (hf rfl)⟩
    · rename_i e; rw [eq_of_beq e]; cases h; exact ⟨_, rfl, fun {v fl} hv hf => piece_entry_re_username hv (hf rfl)⟩
    · rename_i e; rw [eq_of_beq e]; cases h; exact ⟨_, rfl, fun {v fl} hv hf => piece_entry_re_password hv (hf rfl)⟩
    · rename_i e; rw [eq_of_beq e]; cases h; exact ⟨_, rfl, fun {v fl} hv hf => piece_entry_re_url hv (hf rfl)⟩
    · rename_i e; rw [eq_of_beq e]; cases h; exact ⟨_, rfl, fun {v fl} hv hf => piece_entry_re_notes hv (hf rfl)⟩
    · rename_i e; rw [eq_of_beq e]; cases h; exact ⟨_, rfl, fun {v fl} hv hf => piece_entry_re_uuid hv (hf rfl)⟩
    · rename_i e; exact absurd (eq_of_beq e) htags
    · rename_i e; exact absurd (eq_of_beq e) hstring
    · rename_i e; rw [eq_of_beq e]; cases h; exact ⟨_, rfl, fun {v fl} hv hf => piece_entry_re_autotype_sequence hv (hf rfl)⟩
    · rename_i e; rw [eq_of_beq e]; cases h; exact ⟨_, rfl, fun {v fl} hv hf => piece_entry_re_autotype_window hv (hf rfl)⟩
    · rename_i e; rw [eq_of_beq e]; cases h; exact ⟨_, rfl, fun {v fl} hv hf => piece_entry_re_autotype_enabled hv (hf rfl)⟩
    · rename_i e; rw [eq_of_beq e]; cases h; exact ⟨_, rfl, fun {v fl} hv hf => piece_entry_re_otp hv (hf rfl)⟩
    · cases h

theorem piece_group_ex_name {v : Str} (hv : Plain v) (fl : Str) :
    Piece (fmt "/Name[text()=\"{}\"]/..".toList [v] fl) (placeInstrs false fl v (.sub ["Name".toList])) :=
  piece_value hv (A := "/Name[text()=\"".toList) (B := "\"]/..".toList)
    (out := [.slash, .name "Name".toList, .lbr, .name "text".toList, .lpar, .rpar, .eq])
    (ts := [.slash, .name "Name".toList, .lbr, .name "text".toList, .lpar, .rpar, .eq, .lit v, .rbr, .slash, .ddot]) rfl
    ⟨_, _, rfl, Or.inl rfl⟩ rfl rfl rfl

theorem piece_group_ex_uuid {v : Str} (hv : Plain v) (fl : Str) :
    Piece (fmt "/UUID[text()=\"{}\"]/..".toList [v] fl) (placeInstrs false fl v (.sub ["UUID".toList])) :=
  piece_value hv (A := "/UUID[text()=\"".toList) (B := "\"]/..".toList)
    (out := [.slash, .name "UUID".toList, .lbr, .name "text".toList, .lpar, .rpar, .eq])
    (ts := [.slash, .name "UUID".toList, .lbr, .name "text".toList, .lpar, .rpar, .eq, .lit v, .rbr, .slash, .ddot]) rfl
    ⟨_, _, rfl, Or.inl rfl⟩ rfl rfl rfl

theorem piece_group_ex_notes {v : Str} (hv : Plain v) (fl : Str) :
    Piece (fmt "/Notes[text()=\"{}\"]/..".toList [v] fl) (placeInstrs false fl v (.sub ["Notes".toList])) :=
  piece_value hv (A := "/Notes[text()=\"".toList) (B := "\"]/..".toList)
    (out := [.slash, .name "Notes".toList, .lbr, .name "text".toList, .lpar, .rpar, .eq])
    (ts := [.slash, .name "Notes".toList, .lbr, .name "text".toList, .lpar, .rpar, .eq, .lit v, .rbr, .slash, .ddot]) rfl
    ⟨_, _, rfl, Or.inl rfl⟩ rfl rfl rfl

theorem piece_group_re_name {v fl : Str} (hv : Plain v) (hf : Plain fl) :
    Piece (fmt "/Name[re:test(text(), \"{}\", \"{flags}\")]/..".toList [v] fl) (placeInstrs true fl v (.sub ["Name".toList])) :=
  piece_value2 hv hf (A := "/Name[re:test(text(), \"".toList) (B := "\", \"".toList) (C := "\")]/..".toList)
    (out := [.slash, .name "Name".toList, .lbr, .name "re:test".toList, .lpar, .name "text".toList, .lpar, .rpar, .comma]) (out2 := [.slash, .name "Name".toList, .lbr, .name "re:test".toList, .lpar, .name "text".toList, .lpar, .rpar, .comma, .lit v, .comma])
    (ts := [.slash, .name "Name".toList, .lbr, .name "re:test".toList, .lpar, .name "text".toList, .lpar, .rpar, .comma, .lit v, .comma, .lit fl, .rpar, .rbr, .slash, .ddot]) rfl
    ⟨_, _, rfl, Or.inl rfl⟩ rfl rfl rfl rfl

theorem piece_group_re_uuid {v fl : Str} (hv : Plain v) (hf : Plain fl) :
    Piece (fmt "/UUID[re:test(text(), \"{}\", \"{flags}\")]/..".toList [v] fl) (placeInstrs true fl v (.sub ["UUID".toList])) :=
  piece_value2 hv hf (A := "/UUID[re:test(text(), \"".toList) (B := "\", \"".toList) (C := "\")]/..".toList)
    (out := [.slash, .name "UUID".toList, .lbr, .name "re:test".toList, .lpar, .name "text".toList, .lpar, .rpar, .comma]) (out2 := [.slash, .name "UUID".toList, .lbr, .name "re:test".toList, .lpar, .name "text".toList, .lpar, .rpar, .comma, .lit v, .comma])
    (ts := [.slash, .name "UUID".toList, .lbr, .name "re:test".toList, .lpar, .name "text".toList, .lpar, .rpar, .comma, .lit v, .comma, .lit fl, .rpar, .rbr, .slash, .ddot]) rfl
    ⟨_, _, rfl, Or.inl rfl⟩ rfl rfl rfl rfl

theorem piece_group_re_notes {v fl : Str} (hv : Plain v) (hf : Plain fl) :
    Piece (fmt "/Notes[re:test(text(), \"{}\", \"{flags}\")]/..".toList [v] fl) (placeInstrs true fl v (.sub ["Notes".toList])) :=
  piece_value2 hv hf (A := "/Notes[re:test(text(), \"".toList) (B := "\", \"".toList) (C := "\")]/..".toList)
    (out := [.slash, .name "Notes".toList, .lbr, .name "re:test".toList, .lpar, .name "text".toList, .lpar, .rpar, .comma]) (out2 := [.slash, .name "Notes".toList, .lbr, .name "re:test".toList, .lpar, .name "text".toList, .lpar, .rpar, .comma, .lit v, .comma])
    (ts := [.slash, .name "Notes".toList, .lbr, .name "re:test".toList, .lpar, .name "text".toList, .lpar, .rpar, .comma, .lit v, .comma, .lit fl, .rpar, .rbr, .slash, .ddot]) rfl
    ⟨_, _, rfl, Or.inl rfl⟩ rfl rfl rfl rfl

/-- Every template of `group_xp` reads as the place it names. -/
theorem piece_group {rg : Bool} {key t : Str} (h : (groupXp rg).lookup key = some t) :
    ∃ p, groupPlace' key = some p ∧ ∀ {v fl : Str}, Plain v → (rg = true → Plain fl) → Piece (fmt t [v] fl) (placeInstrs rg fl v p) := by
  cases rg <;> simp only [groupXp, List.lookup] at h
  · repeat' split at h
    · rename_i e; rw [eq_of_beq e]; cases h; exact ⟨_, rfl, fun {v fl} hv hf => piece_group_ex_name hv fl⟩
    · rename_i e; rw [eq_of_beq e]; cases h; exact ⟨_, rfl, fun {v fl} hv hf => piece_group_ex_uuid hv fl⟩
    · rename_i e; rw [eq_of_beq e]; cases h; exact ⟨_, rfl, fun {v fl} hv hf => piece_group_ex_notes hv fl⟩
    · cases h
  · repeat' split at h
    · rename_i e; rw [eq_of_beq e]; cases h; exact ⟨_, rfl, fun {v fl} hv hf => piece_group_re_name hv (hf rfl)⟩
    · rename_i e; rw [eq_of_beq e]; cases h; exact ⟨_, rfl, fun {v fl} hv hf => piece_group_re_uuid hv (hf rfl)⟩
    · rename_i e; rw [eq_of_beq e]; cases h; exact ⟨_, rfl, fun {v fl} hv hf => piece_group_re_notes hv (hf rfl)⟩
    · cases h

theorem piece_attachment_ex_id {v : Str} (hv : Plain v) (fl : Str) :
    Piece (fmt "/Value[@Ref=\"{}\"]/..".toList [v] fl) (placeInstrs false fl v (.ref)) :=
  piece_value hv (A := "/Value[@Ref=\"".toList) (B := "\"]/..".toList)
    (out := [.slash, .name "Value".toList, .lbr, .at, .name "Ref".toList, .eq])
    (ts := [.slash, .name "Value".toList, .lbr, .at, .name "Ref".toList, .eq, .lit v, .rbr, .slash, .ddot]) rfl
    ⟨_, _, rfl, Or.inl rfl⟩ rfl rfl rfl

theorem piece_attachment_ex_filename {v : Str} (hv : Plain v) (fl : Str) :
    Piece (fmt "/Key[text()=\"{}\"]/..".toList [v] fl) (placeInstrs false fl v (.sub ["Key".toList])) :=
  piece_value hv (A := "/Key[text()=\"".toList) (B := "\"]/..".toList)
    (out := [.slash, .name "Key".toList, .lbr, .name "text".toList, .lpar, .rpar, .eq])
    (ts := [.slash, .name "Key".toList, .lbr, .name "text".toList, .lpar, .rpar, .eq, .lit v, .rbr, .slash, .ddot]) rfl
    ⟨_, _, rfl, Or.inl rfl⟩ rfl rfl rfl

theorem piece_attachment_re_id {v fl : Str} (hv : Plain v) (hf : Plain fl) :
    Piece (fmt "/Value[re:test(@Ref, \"{}\", \"{flags}\")]/..".toList [v] fl) (placeInstrs true fl v (.ref)) :=
  piece_value2 hv hf (A := "/Value[re:test(@Ref, \"".toList) (B := "\", \"".toList) (C := "\")]/..".toList)
    (out := [.slash, .name "Value".toList, .lbr, .name "re:test".toList, .lpar, .at, .name "Ref".toList, .comma]) (out2 := [.slash, .name "Value".toList, .lbr, .name "re:test".toList, .lpar, .at, .name "Ref".toList, .comma, .lit v, .comma])
    (ts := [.slash, .name "Value".toList, .lbr, .name "re:test".toList, .lpar, .at, .name "Ref".toList, .comma, .lit v, .comma, .lit fl, .rpar, .rbr, .slash, .ddot]) rfl
    ⟨_, _, rfl, Or.inl rfl⟩ rfl rfl rfl rfl

theorem piece_attachment_re_filename {v fl : Str} (hv : Plain v) (hf : Plain fl) :
    Piece (fmt "/Key[re:test(text(), \"{}\", \"{flags}\")]/..".toList [v] fl) (placeInstrs true fl v (.sub ["Key".toList])) :=
  piece_value2 hv hf (A := "/Key[re:test(text(), \"".toList) (B := "\", \"".toList) (C := "\")]/..".toList)
    (out := [.slash, .name "Key".toList, .lbr, .name "re:test".toList, .lpar, .name "text".toList, .lpar, .rpar, .comma]) (out2 := [.slash, .name "Key".toList, .lbr, .name "re:test".toList, .lpar, .name "text".toList, .lpar, .rpar, .comma, .lit v, .comma])
    (ts := [.slash, .name "Key".toList, .lbr, .name "re:test".toList, .lpar, .name "text".toList, .lpar, .rpar, .comma, .lit v, .comma, .lit fl, .rpar, .rbr, .slash, .ddot]) rfl
    ⟨_, _, rfl, Or.inl rfl⟩ rfl rfl rfl rfl

/-- Every template of `attachment_xp` reads as the place it names. -/
theorem piece_attachment {rg : Bool} {key t : Str} (h : (attachmentXp rg).lookup key = some t) :
    ∃ p, attachmentPlace key = some p ∧ ∀ {v fl : Str}, Plain v → (rg = true → Plain fl) → Piece (fmt t [v] fl) (placeInstrs rg fl v p) := by
  cases rg <;> simp only [attachmentXp, List.lookup] at h
  · repeat' split at h
    · rename_i e; rw [eq_of_beq e]; cases h; exact ⟨_, rfl, fun {v fl} hv hf => piece_attachment_ex_id hv fl⟩
    · rename_i e; rw [eq_of_beq e]; cases h; exact ⟨_, rfl, fun {v fl} hv hf => piece_attachment_ex_filename hv fl⟩
    · cases h
  · repeat' split at h
    · rename_i e; rw [eq_of_beq e]; cases h; exact ⟨_, rfl, fun {v fl} hv hf => piece_attachment_re_id hv (hf rfl)⟩
    · rename_i e; rw [eq_of_beq e]; cases h; exact ⟨_, rfl, fun {v fl} hv hf => piece_attachment_re_filename hv (hf rfl)⟩
    · cases h

theorem piece_entry_ex_string {k v : Str} (hk : Plain k) (hv : Plain v) (fl : Str) :
    Piece (fmt "/String/Key[text()=\"{}\"]/../Value[text()=\"{}\"]/../..".toList [k, v] fl) (placeInstrs false fl v (.field k)) :=
  piece_value2 hk hv (A := "/String/Key[text()=\"".toList) (B := "\"]/../Value[text()=\"".toList) (C := "\"]/../..".toList)
    (out := [.slash, .name "String".toList, .slash, .name "Key".toList, .lbr, .name "text".toList, .lpar, .rpar, .eq]) (out2 := [.slash, .name "String".toList, .slash, .name "Key".toList, .lbr, .name "text".toList, .lpar, .rpar, .eq, .lit k, .rbr, .slash, .ddot, .slash, .name "Value".toList, .lbr, .name "text".toList, .lpar, .rpar, .eq])
    (ts := [.slash, .name "String".toList, .slash, .name "Key".toList, .lbr, .name "text".toList, .lpar, .rpar, .eq, .lit k, .rbr, .slash, .ddot, .slash, .name "Value".toList, .lbr, .name "text".toList, .lpar, .rpar, .eq, .lit v, .rbr, .slash, .ddot, .slash, .ddot]) rfl
    ⟨_, _, rfl, Or.inl rfl⟩ rfl rfl rfl rfl

theorem piece_entry_re_string {k v fl : Str} (hk : Plain k) (hv : Plain v) (hf : Plain fl) :
    Piece (fmt "/String/Key[text()=\"{}\"]/../Value[re:test(text(), \"{}\", \"{flags}\")]/../..".toList [k, v] fl) (placeInstrs true fl v (.field k)) :=
  piece_value3 hk hv hf (A := "/String/Key[text()=\"".toList) (B := "\"]/../Value[re:test(text(), \"".toList) (C := "\", \"".toList) (D := "\")]/../..".toList)
    (out := [.slash, .name "String".toList, .slash, .name "Key".toList, .lbr, .name "text".toList, .lpar, .rpar, .eq]) (out2 := [.slash, .name "String".toList, .slash, .name "Key".toList, .lbr, .name "text".toList, .lpar, .rpar, .eq, .lit k, .rbr, .slash, .ddot, .slash, .name "Value".toList, .lbr, .name "re:test".toList, .lpar, .name "text".toList, .lpar, .rpar, .comma])
    (out3 := [.slash, .name "String".toList, .slash, .name "Key".toList, .lbr, .name "text".toList, .lpar, .rpar, .eq, .lit k, .rbr, .slash, .ddot, .slash, .name "Value".toList, .lbr, .name "re:test".toList, .lpar, .name "text".toList, .lpar, .rpar, .comma, .lit v, .comma])
    (ts := [.slash, .name "String".toList, .slash, .name "Key".toList, .lbr, .name "text".toList, .lpar, .rpar, .eq, .lit k, .rbr, .slash, .ddot, .slash, .name "Value".toList, .lbr, .name "re:test".toList, .lpar, .name "text".toList, .lpar, .rpar, .comma, .lit v, .comma, .lit fl, .rpar, .rbr, .slash, .ddot, .slash, .ddot]) rfl
    ⟨_, _, rfl, Or.inl rfl⟩ rfl rfl rfl rfl rfl

theorem piece_path_ex_group {v : Str} (hv : Plain v) (fl : Str) :
    Piece (fmt "/Group/Name[text()=\"{}\"]/..".toList [v] fl) (.child "Group".toList :: placeInstrs false fl v (.sub ["Name".toList])) :=
  piece_value hv (A := "/Group/Name[text()=\"".toList) (B := "\"]/..".toList)
    (out := [.slash, .name "Group".toList, .slash, .name "Name".toList, .lbr, .name "text".toList, .lpar, .rpar, .eq])
    (ts := [.slash, .name "Group".toList, .slash, .name "Name".toList, .lbr, .name "text".toList, .lpar, .rpar, .eq, .lit v, .rbr, .slash, .ddot]) rfl
    ⟨_, _, rfl, Or.inl rfl⟩ rfl rfl rfl

theorem piece_path_ex_entry {v : Str} (hv : Plain v) (fl : Str) :
    Piece (fmt "/Entry/String/Key[text()=\"Title\"]/../Value[text()=\"{}\"]/../..".toList [v] fl) (.child "Entry".toList :: placeInstrs false fl v (.field "Title".toList)) :=
  piece_value hv (A := "/Entry/String/Key[text()=\"Title\"]/../Value[text()=\"".toList) (B := "\"]/../..".toList)
    (out := [.slash, .name "Entry".toList, .slash, .name "String".toList, .slash, .name "Key".toList, .lbr, .name "text".toList, .lpar, .rpar, .eq, .lit "Title".toList, .rbr, .slash, .ddot, .slash, .name "Value".toList, .lbr, .name "text".toList, .lpar, .rpar, .eq])
    (ts := [.slash, .name "Entry".toList, .slash, .name "String".toList, .slash, .name "Key".toList, .lbr, .name "text".toList, .lpar, .rpar, .eq, .lit "Title".toList, .rbr, .slash, .ddot, .slash, .name "Value".toList, .lbr, .name "text".toList, .lpar, .rpar, .eq, .lit v, .rbr, .slash, .ddot, .slash, .ddot]) rfl
    ⟨_, _, rfl, Or.inl rfl⟩ rfl rfl rfl

theorem piece_path_re_group {v fl : Str} (hv : Plain v) (hf : Plain fl) :
    Piece (fmt "/Group/Name[re:test(text(), \"{}\", \"{flags}\")]/..".toList [v] fl) (.child "Group".toList :: placeInstrs true fl v (.sub ["Name".toList])) :=
  piece_value2 hv hf (A := "/Group/Name[re:test(text(), \"".toList) (B := "\", \"".toList) (C := "\")]/..".toList)
    (out := [.slash, .name "Group".toList, .slash, .name "Name".toList, .lbr, .name "re:test".toList, .lpar, .name "text".toList, .lpar, .rpar, .comma]) (out2 := [.slash, .name "Group".toList, .slash, .name "Name".toList, .lbr, .name "re:test".toList, .lpar, .name "text".toList, .lpar, .rpar, .comma, .lit v, .comma])
    (ts := [.slash, .name "Group".toList, .slash, .name "Name".toList, .lbr, .name "re:test".toList, .lpar, .name "text".toList, .lpar, .rpar, .comma, .lit v, .comma, .lit fl, .rpar, .rbr, .slash, .ddot]) rfl
    ⟨_, _, rfl, Or.inl rfl⟩ rfl rfl rfl rfl

theorem piece_path_re_entry {v fl : Str} (hv : Plain v) (hf : Plain fl) :
    Piece (fmt "/Entry/String/Key[text()=\"Title\"]/../Value[re:test(text(), \"{}\", \"{flags}\")]/../..".toList [v] fl) (.child "Entry".toList :: placeInstrs true fl v (.field "Title".toList)) :=
  piece_value2 hv hf (A := "/Entry/String/Key[text()=\"Title\"]/../Value[re:test(text(), \"".toList) (B := "\", \"".toList) (C := "\")]/../..".toList)
    (out := [.slash, .name "Entry".toList, .slash, .name "String".toList, .slash, .name "Key".toList, .lbr, .name "text".toList, .lpar, .rpar, .eq, .lit "Title".toList, .rbr, .slash, .ddot, .slash, .name "Value".toList, .lbr, .name "re:test".toList, .lpar, .name "text".toList, .lpar, .rpar, .comma]) (out2 := [.slash, .name "Entry".toList, .slash, .name "String".toList, .slash, .name "Key".toList, .lbr, .name "text".toList, .lpar, .rpar, .eq, .lit "Title".toList, .rbr, .slash, .ddot, .slash, .name "Value".toList, .lbr, .name "re:test".toList, .lpar, .name "text".toList, .lpar, .rpar, .comma, .lit v, .comma])
    (ts := [.slash, .name "Entry".toList, .slash, .name "String".toList, .slash, .name "Key".toList, .lbr, .name "text".toList, .lpar, .rpar, .eq, .lit "Title".toList, .rbr, .slash, .ddot, .slash, .name "Value".toList, .lbr, .name "re:test".toList, .lpar, .name "text".toList, .lpar, .rpar, .comma, .lit v, .comma, .lit fl, .rpar, .rbr, .slash, .ddot, .slash, .ddot]) rfl
    ⟨_, _, rfl, Or.inl rfl⟩ rfl rfl rfl rfl

end Verif.XPath
