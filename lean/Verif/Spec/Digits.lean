import Verif.Model.Basic

/-!
# The decimal digits of Unicode

The digits zero of the scripts of the world (general category `Nd`, Unicode 15), by their names. In every script the other nine follow.
-/

namespace Cskk.Spec

def zeros : List (String × Nat) := [
  ("Ascii", 0x30),
  ("Arabic-Indic", 0x660),
  ("Extended Arabic-Indic", 0x6F0),
  ("Nko", 0x7C0),
  ("Devanagari", 0x966),
  ("Bengali", 0x9E6),
  ("Gurmukhi", 0xA66),
  ("Gujarati", 0xAE6),
  ("Oriya", 0xB66),
  ("Tamil", 0xBE6),
  ("Telugu", 0xC66),
  ("Kannada", 0xCE6),
  ("Malayalam", 0xD66),
  ("Sinhala Lith", 0xDE6),
  ("Thai", 0xE50),
  ("Lao", 0xED0),
  ("Tibetan", 0xF20),
  ("Myanmar", 0x1040),
  ("Myanmar Shan", 0x1090),
  ("Khmer", 0x17E0),
  ("Mongolian", 0x1810),
  ("Limbu", 0x1946),
  ("New Tai Lue", 0x19D0),
  ("Tai Tham Hora", 0x1A80),
  ("Tai Tham Tham", 0x1A90),
  ("Balinese", 0x1B50),
  ("Sundanese", 0x1BB0),
  ("Lepcha", 0x1C40),
  ("Ol Chiki", 0x1C50),
  ("Vai", 0xA620),
  ("Saurashtra", 0xA8D0),
  ("Kayah Li", 0xA900),
  ("Javanese", 0xA9D0),
  ("Myanmar Tai Laing", 0xA9F0),
  ("Cham", 0xAA50),
  ("Meetei Mayek", 0xABF0),
  ("Fullwidth", 0xFF10),
  ("Osmanya", 0x104A0),
  ("Hanifi Rohingya", 0x10D30),
  ("Brahmi", 0x11066),
  ("Sora Sompeng", 0x110F0),
  ("Chakma", 0x11136),
  ("Sharada", 0x111D0),
  ("Khudawadi", 0x112F0),
  ("Newa", 0x11450),
  ("Tirhuta", 0x114D0),
  ("Modi", 0x11650),
  ("Takri", 0x116C0),
  ("Ahom", 0x11730),
  ("Warang Citi", 0x118E0),
  ("Dives Akuru", 0x11950),
  ("Bhaiksuki", 0x11C50),
  ("Masaram Gondi", 0x11D50),
  ("Gunjala Gondi", 0x11DA0),
  ("Kawi", 0x11F50),
  ("Mro", 0x16A60),
  ("Tangsa", 0x16AC0),
  ("Pahawh Hmong", 0x16B50),
  ("Mathematical Bold", 0x1D7CE),
  ("Mathematical Double-Struck", 0x1D7D8),
  ("Mathematical Sans-Serif", 0x1D7E2),
  ("Mathematical Sans-Serif Bold", 0x1D7EC),
  ("Mathematical Monospace", 0x1D7F6),
  ("Nyiakeng Puachue Hmong", 0x1E140),
  ("Wancho", 0x1E2F0),
  ("Nag Mundari", 0x1E4F0),
  ("Adlam", 0x1E950),
  ("Segmented", 0x1FBF0)]

/-- A decimal digit of some script, and its value. -/
def Digit (c : Char) (n : Nat) : Prop := n < 10 ∧ ∃ s ∈ zeros, c.toNat = s.2 + n

end Cskk.Spec
