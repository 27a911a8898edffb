import Verif.Model.RuleText

/-! # The texts of the shipped rules (generated by `tools/genruletext.py`, do not edit) -/

namespace Cskk.Assets

open RuleText

/-- The lines of `[conversion]` of /repo/assets/rules/default/rule.toml. -/
def defaultConversionText : List (Str × Str × Str) :=
  [(c%"colon", c%"", c%"："), (c%"semicolon", c%"", c%"；"), (c%"question", c%"", c%"？"), (c%"bracketleft", c%"", c%"「"),
   (c%"bracketright", c%"", c%"」"), (c%"minus", c%"", c%"ー"), (c%"a", c%"", c%"あ"), (c%"ba", c%"", c%"ば"),
   (c%"bb", c%"b", c%"っ"), (c%"be", c%"", c%"べ"), (c%"bi", c%"", c%"び"), (c%"bo", c%"", c%"ぼ"),
   (c%"bu", c%"", c%"ぶ"), (c%"bya", c%"", c%"びゃ"), (c%"bye", c%"", c%"びぇ"), (c%"byi", c%"", c%"びぃ"),
   (c%"byo", c%"", c%"びょ"), (c%"byu", c%"", c%"びゅ"), (c%"cc", c%"c", c%"っ"), (c%"cha", c%"", c%"ちゃ"),
   (c%"che", c%"", c%"ちぇ"), (c%"chi", c%"", c%"ち"), (c%"cho", c%"", c%"ちょ"), (c%"chu", c%"", c%"ちゅ"),
   (c%"cya", c%"", c%"ちゃ"), (c%"cye", c%"", c%"ちぇ"), (c%"cyi", c%"", c%"ちぃ"), (c%"cyo", c%"", c%"ちょ"),
   (c%"cyu", c%"", c%"ちゅ"), (c%"da", c%"", c%"だ"), (c%"dd", c%"d", c%"っ"), (c%"de", c%"", c%"で"),
   (c%"dha", c%"", c%"でゃ"), (c%"dhe", c%"", c%"でぇ"), (c%"dhi", c%"", c%"でぃ"), (c%"dho", c%"", c%"でょ"),
   (c%"dhu", c%"", c%"でゅ"), (c%"di", c%"", c%"ぢ"), (c%"do", c%"", c%"ど"), (c%"du", c%"", c%"づ"),
   (c%"dya", c%"", c%"ぢゃ"), (c%"dye", c%"", c%"ぢぇ"), (c%"dyi", c%"", c%"ぢぃ"), (c%"dyo", c%"", c%"ぢょ"),
   (c%"dyu", c%"", c%"ぢゅ"), (c%"e", c%"", c%"え"), (c%"fa", c%"", c%"ふぁ"), (c%"fe", c%"", c%"ふぇ"),
   (c%"f f", c%"f", c%"っ"), (c%"fi", c%"", c%"ふぃ"), (c%"fo", c%"", c%"ふぉ"), (c%"fu", c%"", c%"ふ"),
   (c%"fya", c%"", c%"ふゃ"), (c%"fye", c%"", c%"ふぇ"), (c%"fyi", c%"", c%"ふぃ"), (c%"fyo", c%"", c%"ふょ"),
   (c%"fyu", c%"", c%"ふゅ"), (c%"ga", c%"", c%"が"), (c%"ge", c%"", c%"げ"), (c%"gg", c%"g", c%"っ"),
   (c%"gi", c%"", c%"ぎ"), (c%"go", c%"", c%"ご"), (c%"gu", c%"", c%"ぐ"), (c%"gya", c%"", c%"ぎゃ"),
   (c%"gye", c%"", c%"ぎぇ"), (c%"gyi", c%"", c%"ぎぃ"), (c%"gyo", c%"", c%"ぎょ"), (c%"gyu", c%"", c%"ぎゅ"),
   (c%"ha", c%"", c%"は"), (c%"he", c%"", c%"へ"), (c%"hh", c%"h", c%"っ"), (c%"hi", c%"", c%"ひ"),
   (c%"ho", c%"", c%"ほ"), (c%"hu", c%"", c%"ふ"), (c%"hya", c%"", c%"ひゃ"), (c%"hye", c%"", c%"ひぇ"),
   (c%"hyi", c%"", c%"ひぃ"), (c%"hyo", c%"", c%"ひょ"), (c%"hyu", c%"", c%"ひゅ"), (c%"i", c%"", c%"い"),
   (c%"ja", c%"", c%"じゃ"), (c%"je", c%"", c%"じぇ"), (c%"ji", c%"", c%"じ"), (c%"jj", c%"j", c%"っ"),
   (c%"jo", c%"", c%"じょ"), (c%"ju", c%"", c%"じゅ"), (c%"jya", c%"", c%"じゃ"), (c%"jye", c%"", c%"じぇ"),
   (c%"jyi", c%"", c%"じぃ"), (c%"jyo", c%"", c%"じょ"), (c%"jyu", c%"", c%"じゅ"), (c%"ka", c%"", c%"か"),
   (c%"ke", c%"", c%"け"), (c%"ki", c%"", c%"き"), (c%"kk", c%"k", c%"っ"), (c%"ko", c%"", c%"こ"),
   (c%"ku", c%"", c%"く"), (c%"kya", c%"", c%"きゃ"), (c%"kye", c%"", c%"きぇ"), (c%"kyi", c%"", c%"きぃ"),
   (c%"kyo", c%"", c%"きょ"), (c%"kyu", c%"", c%"きゅ"), (c%"ma", c%"", c%"ま"), (c%"me", c%"", c%"め"),
   (c%"mi", c%"", c%"み"), (c%"mm", c%"m", c%"っ"), (c%"mo", c%"", c%"も"), (c%"m u", c%"", c%"む"),
   (c%"mya", c%"", c%"みゃ"), (c%"mye", c%"", c%"みぇ"), (c%"myi", c%"", c%"みぃ"), (c%"myo", c%"", c%"みょ"),
   (c%"myu", c%"", c%"みゅ"), (c%"n", c%"", c%"ん"), (c%"na", c%"", c%"な"), (c%"ne", c%"", c%"ね"),
   (c%"ni", c%"", c%"に"), (c%"nn", c%"", c%"ん"), (c%"no", c%"", c%"の"), (c%"nu", c%"", c%"ぬ"),
   (c%"nya", c%"", c%"にゃ"), (c%"nye", c%"", c%"にぇ"), (c%"nyi", c%"", c%"にぃ"), (c%"nyo", c%"", c%"にょ"),
   (c%"nyu", c%"", c%"にゅ"), (c%"n quotedbl", c%"", c%"ん"), (c%"o", c%"", c%"お"), (c%"pa", c%"", c%"ぱ"),
   (c%"pe", c%"", c%"ぺ"), (c%"pi", c%"", c%"ぴ"), (c%"po", c%"", c%"ぽ"), (c%"pp", c%"p", c%"っ"),
   (c%"pu", c%"", c%"ぷ"), (c%"pya", c%"", c%"ぴゃ"), (c%"pye", c%"", c%"ぴぇ"), (c%"pyi", c%"", c%"ぴぃ"),
   (c%"pyo", c%"", c%"ぴょ"), (c%"pyu", c%"", c%"ぴゅ"), (c%"ra", c%"", c%"ら"), (c%"re", c%"", c%"れ"),
   (c%"ri", c%"", c%"り"), (c%"ro", c%"", c%"ろ"), (c%"rr", c%"r", c%"っ"), (c%"ru", c%"", c%"る"),
   (c%"rya", c%"", c%"りゃ"), (c%"rye", c%"", c%"りぇ"), (c%"ryi", c%"", c%"りぃ"), (c%"ryo", c%"", c%"りょ"),
   (c%"ryu", c%"", c%"りゅ"), (c%"sa", c%"", c%"さ"), (c%"se", c%"", c%"せ"), (c%"sha", c%"", c%"しゃ"),
   (c%"she", c%"", c%"しぇ"), (c%"shi", c%"", c%"し"), (c%"sho", c%"", c%"しょ"), (c%"shu", c%"", c%"しゅ"),
   (c%"si", c%"", c%"し"), (c%"so", c%"", c%"そ"), (c%"ss", c%"s", c%"っ"), (c%"su", c%"", c%"す"),
   (c%"sya", c%"", c%"しゃ"), (c%"sye", c%"", c%"しぇ"), (c%"syi", c%"", c%"しぃ"), (c%"syo", c%"", c%"しょ"),
   (c%"syu", c%"", c%"しゅ"), (c%"ta", c%"", c%"た"), (c%"te", c%"", c%"て"), (c%"tha", c%"", c%"てぁ"),
   (c%"the", c%"", c%"てぇ"), (c%"thi", c%"", c%"てぃ"), (c%"tho", c%"", c%"てょ"), (c%"thu", c%"", c%"てゅ"),
   (c%"ti", c%"", c%"ち"), (c%"to", c%"", c%"と"), (c%"tsu", c%"", c%"つ"), (c%"tt", c%"t", c%"っ"),
   (c%"tu", c%"", c%"つ"), (c%"tya", c%"", c%"ちゃ"), (c%"tye", c%"", c%"ちぇ"), (c%"tyi", c%"", c%"ちぃ"),
   (c%"tyo", c%"", c%"ちょ"), (c%"tyu", c%"", c%"ちゅ"), (c%"u", c%"", c%"う"), (c%"va", c%"", c%"ゔぁ"),
   (c%"ve", c%"", c%"ゔぇ"), (c%"vi", c%"", c%"ゔぃ"), (c%"vo", c%"", c%"ゔぉ"), (c%"vu", c%"", c%"ゔ"),
   (c%"vv", c%"v", c%"っ"), (c%"wa", c%"", c%"わ"), (c%"we", c%"", c%"うぇ"), (c%"wi", c%"", c%"うぃ"),
   (c%"wo", c%"", c%"を"), (c%"wu", c%"", c%"う"), (c%"ww", c%"w", c%"っ"), (c%"xa", c%"", c%"ぁ"),
   (c%"xe", c%"", c%"ぇ"), (c%"xi", c%"", c%"ぃ"), (c%"xka", c%"", c%"ゕ"), (c%"xke", c%"", c%"ゖ"),
   (c%"xo", c%"", c%"ぉ"), (c%"xtsu", c%"", c%"っ"), (c%"xtu", c%"", c%"っ"), (c%"xu", c%"", c%"ぅ"),
   (c%"xwa", c%"", c%"ゎ"), (c%"xwe", c%"", c%"ゑ"), (c%"xwi", c%"", c%"ゐ"), (c%"xx", c%"x", c%"っ"),
   (c%"xya", c%"", c%"ゃ"), (c%"xyo", c%"", c%"ょ"), (c%"xyu", c%"", c%"ゅ"), (c%"ya", c%"", c%"や"),
   (c%"ye", c%"", c%"いぇ"), (c%"yo", c%"", c%"よ"), (c%"yu", c%"", c%"ゆ"), (c%"yy", c%"y", c%"っ"),
   (c%"z comma", c%"", c%"‥"), (c%"z period", c%"", c%"…"), (c%"z slash", c%"", c%"・"), (c%"z bracketleft", c%"", c%"『"),
   (c%"z bracketright", c%"", c%"』"), (c%"z minus", c%"", c%"〜"), (c%"za", c%"", c%"ざ"), (c%"ze", c%"", c%"ぜ"),
   (c%"zh", c%"", c%"←"), (c%"zi", c%"", c%"じ"), (c%"zj", c%"", c%"↓"), (c%"zk", c%"", c%"↑"),
   (c%"zl", c%"", c%"→"), (c%"zo", c%"", c%"ぞ"), (c%"zu", c%"", c%"ず"), (c%"zya", c%"", c%"じゃ"),
   (c%"zye", c%"", c%"じぇ"), (c%"zyi", c%"", c%"じぃ"), (c%"zyo", c%"", c%"じょ"), (c%"zyu", c%"", c%"じゅ"),
   (c%"zz", c%"z", c%"っ")]

/-- The other tables of /repo/assets/rules/default/rule.toml, without `[metadata]` and `[command]`, which are ignored. -/
def defaultSections : List (Str × List (Str × List (Str × List Str))) :=
  [(c%"direct",
    [(c%"hiragana",
      [(c%"l", [c%"ForceKanaConvert(Hiragana)", c%"ChangeInputMode(Ascii)", c%"ClearUnconfirmedInputs"]),
       (c%"L", [c%"ForceKanaConvert(Hiragana)", c%"ChangeInputMode(Zenkaku)", c%"ClearUnconfirmedInputs"]),
       (c%"C-q", [c%"ForceKanaConvert(Hiragana)", c%"ChangeInputMode(HankakuKatakana)", c%"ClearUnconfirmedInputs"]),
       (c%"q", [c%"ForceKanaConvert(Hiragana)", c%"ChangeInputMode(Katakana)", c%"ClearUnconfirmedInputs"]),
       (c%"Q", [c%"ChangeCompositionMode(PreComposition)"]),
       (c%"C-j", [c%"FinishKeyEvent"]),
       (c%"C-g", [c%"Abort"]),
       (c%"C-G", [c%"Abort"]),
       (c%"Return", [c%"ConfirmDirect"]),
       (c%"C-m", [c%"ConfirmDirect"]),
       (c%"BackSpace", [c%"Delete"]),
       (c%"C-h", [c%"Delete"]),
       (c%"C-H", [c%"Delete"]),
       (c%"slash", [c%"ChangeCompositionMode(Abbreviation)"])]),
     (c%"katakana",
      [(c%"l", [c%"ForceKanaConvert(Katakana)", c%"ChangeInputMode(Ascii)", c%"ClearUnconfirmedInputs"]),
       (c%"L", [c%"ForceKanaConvert(Katakana)", c%"ChangeInputMode(Zenkaku)", c%"ClearUnconfirmedInputs"]),
       (c%"C-q", [c%"ForceKanaConvert(Hiragana)", c%"ChangeInputMode(HankakuKatakana)", c%"ClearUnconfirmedInputs"]),
       (c%"q", [c%"ForceKanaConvert(Katakana)", c%"ChangeInputMode(Hiragana)", c%"ClearUnconfirmedInputs"]),
       (c%"Q", [c%"ChangeCompositionMode(PreComposition)"]),
       (c%"C-j", [c%"FinishKeyEvent"]),
       (c%"C-g", [c%"Abort"]),
       (c%"C-G", [c%"Abort"]),
       (c%"Return", [c%"ConfirmDirect"]),
       (c%"C-m", [c%"ConfirmDirect"]),
       (c%"BackSpace", [c%"Delete"]),
       (c%"C-h", [c%"Delete"]),
       (c%"C-H", [c%"Delete"]),
       (c%"slash", [c%"ChangeCompositionMode(Abbreviation)"])]),
     (c%"hankakukatakana",
      [(c%"l", [c%"ForceKanaConvert(HankakuKatakana)", c%"ChangeInputMode(Ascii)", c%"ClearUnconfirmedInputs"]),
       (c%"L", [c%"ForceKanaConvert(HankakuKatakana)", c%"ChangeInputMode(Zenkaku)", c%"ClearUnconfirmedInputs"]),
       (c%"C-q", [c%"ForceKanaConvert(HankakuKatakana)", c%"ChangeInputMode(Katakana)", c%"ClearUnconfirmedInputs"]),
       (c%"q", [c%"ForceKanaConvert(HankakuKatakana)", c%"ChangeInputMode(Hiragana)", c%"ClearUnconfirmedInputs"]),
       (c%"Q", [c%"ChangeCompositionMode(PreComposition)"]),
       (c%"C-j", [c%"FinishKeyEvent"]),
       (c%"C-g", [c%"Abort"]),
       (c%"C-G", [c%"Abort"]),
       (c%"Return", [c%"ConfirmDirect"]),
       (c%"C-m", [c%"ConfirmDirect"]),
       (c%"BackSpace", [c%"Delete"]),
       (c%"C-h", [c%"Delete"]),
       (c%"C-H", [c%"Delete"]),
       (c%"slash", [c%"ChangeCompositionMode(Abbreviation)"])]),
     (c%"zenkaku",
      [(c%"C-g", [c%"Abort"]),
       (c%"C-j", [c%"ChangeInputMode(Hiragana)"]),
       (c%"Return", [c%"ConfirmDirect"]),
       (c%"C-m", [c%"ConfirmDirect"]),
       (c%"BackSpace", [c%"Delete"]),
       (c%"C-h", [c%"Delete"]),
       (c%"C-H", [c%"Delete"])]),
     (c%"ascii",
      [(c%"C-g", [c%"Abort"]),
       (c%"C-j", [c%"ChangeInputMode(Hiragana)"]),
       (c%"Return", [c%"ConfirmDirect"]),
       (c%"C-m", [c%"ConfirmDirect"]),
       (c%"BackSpace", [c%"Delete"]),
       (c%"C-h", [c%"Delete"]),
       (c%"C-H", [c%"Delete"])])]),
   (c%"pre_composition",
    [(c%"hiragana",
      [(c%"space", [c%"TryNextCandidate"]),
       (c%"q", [c%"ForceKanaConvert(Katakana)", c%"ConfirmAs(Katakana)", c%"ChangeCompositionMode(Direct)"]),
       (c%"Q", [c%"FinishKeyEvent"]),
       (c%"C-q", [c%"ConfirmAs(HankakuKatakana)", c%"ChangeCompositionMode(Direct)"]),
       (c%"C-g", [c%"ClearUnconfirmedInputs", c%"Abort"]),
       (c%"C-j", [c%"ForceKanaConvert(Hiragana)", c%"ConfirmAs(Hiragana)", c%"ChangeCompositionMode(Direct)"]),
       (c%"BackSpace", [c%"Delete"]),
       (c%"C-h", [c%"Delete"]),
       (c%"Tab", [c%"TryNextCompletion"])]),
     (c%"katakana",
      [(c%"space", [c%"TryNextCandidate"]),
       (c%"q", [c%"ForceKanaConvert(Hiragana)", c%"ConfirmAs(Hiragana)", c%"ChangeCompositionMode(Direct)"]),
       (c%"Q", [c%"FinishKeyEvent"]),
       (c%"C-q", [c%"ConfirmAs(HankakuKatakana)", c%"ChangeCompositionMode(Direct)"]),
       (c%"C-g", [c%"ClearUnconfirmedInputs", c%"Abort"]),
       (c%"C-j", [c%"ForceKanaConvert(Katakana)", c%"ConfirmAs(Katakana)", c%"ChangeCompositionMode(Direct)"]),
       (c%"BackSpace", [c%"Delete"]),
       (c%"C-h", [c%"Delete"]),
       (c%"Tab", [c%"TryNextCompletion"])]),
     (c%"hankakukatakana",
      [(c%"space", [c%"TryNextCandidate"]),
       (c%"q", [c%"ForceKanaConvert(Hiragana)", c%"ConfirmAs(Hiragana)", c%"ChangeCompositionMode(Direct)"]),
       (c%"Q", [c%"FinishKeyEvent"]),
       (c%"C-q", [c%"ConfirmAs(Katakana)", c%"ChangeCompositionMode(Direct)"]),
       (c%"C-g", [c%"ClearUnconfirmedInputs", c%"Abort"]),
       (c%"C-j", [c%"ForceKanaConvert(HankakuKatakana)", c%"ConfirmAs(HankakuKatakana)", c%"ChangeCompositionMode(Direct)"]),
       (c%"BackSpace", [c%"Delete"]),
       (c%"C-h", [c%"Delete"]),
       (c%"Tab", [c%"TryNextCompletion"])])]),
   (c%"pre_compisition_okurigana",
    [(c%"hiragana",
      [(c%"space", [c%"TryNextCandidate"]),
       (c%"q", [c%"ForceKanaConvert(Katakana)", c%"ConfirmAs(Katakana)", c%"ChangeCompositionMode(Direct)"]),
       (c%"Q", [c%"FinishKeyEvent"]),
       (c%"C-q", [c%"ConfirmAs(HankakuKatakana)", c%"ChangeCompositionMode(Direct)"]),
       (c%"C-g", [c%"ClearUnconfirmedInputs", c%"Abort"]),
       (c%"C-j", [c%"ForceKanaConvert(Hiragana)", c%"ConfirmAs(Hiragana)", c%"ChangeCompositionMode(Direct)"]),
       (c%"BackSpace", [c%"Delete"]),
       (c%"C-h", [c%"Delete"])]),
     (c%"katakana",
      [(c%"space", [c%"TryNextCandidate"]),
       (c%"q", [c%"ForceKanaConvert(Hiragana)", c%"ConfirmAs(Hiragana)", c%"ChangeCompositionMode(Direct)"]),
       (c%"Q", [c%"FinishKeyEvent"]),
       (c%"C-q", [c%"ConfirmAs(HankakuKatakana)", c%"ChangeCompositionMode(Direct)"]),
       (c%"C-g", [c%"ClearUnconfirmedInputs", c%"Abort"]),
       (c%"C-j", [c%"ForceKanaConvert(Katakana)", c%"ConfirmAs(Katakana)", c%"ChangeCompositionMode(Direct)"]),
       (c%"BackSpace", [c%"Delete"]),
       (c%"C-h", [c%"Delete"])]),
     (c%"hankakukatakana",
      [(c%"space", [c%"TryNextCandidate"]),
       (c%"q", [c%"ForceKanaConvert(Hiragana)", c%"ConfirmAs(Hiragana)", c%"ChangeCompositionMode(Direct)"]),
       (c%"Q", [c%"FinishKeyEvent"]),
       (c%"C-q", [c%"ConfirmAs(Katakana)", c%"ChangeCompositionMode(Direct)"]),
       (c%"C-g", [c%"ClearUnconfirmedInputs", c%"Abort"]),
       (c%"C-j", [c%"ForceKanaConvert(HankakuKatakana)", c%"ConfirmAs(HankakuKatakana)", c%"ChangeCompositionMode(Direct)"]),
       (c%"BackSpace", [c%"Delete"]),
       (c%"C-h", [c%"Delete"])])]),
   (c%"abbreviation",
    [(c%"hiragana",
      [(c%"space", [c%"TryNextCandidate"]),
       (c%"BackSpace", [c%"Delete"]),
       (c%"C-h", [c%"Delete"]),
       (c%"C-j", [c%"ConfirmAs(Ascii)", c%"ChangeCompositionMode(Direct)"]),
       (c%"C-q", [c%"ConfirmAs(Zenkaku)", c%"ChangeCompositionMode(Direct)"]),
       (c%"Tab", [c%"TryNextCompletion"])]),
     (c%"katakana",
      [(c%"space", [c%"TryNextCandidate"]),
       (c%"BackSpace", [c%"Delete"]),
       (c%"C-h", [c%"Delete"]),
       (c%"C-j", [c%"ConfirmAs(Ascii)", c%"ChangeCompositionMode(Direct)"]),
       (c%"C-q", [c%"ConfirmAs(Zenkaku)", c%"ChangeCompositionMode(Direct)"]),
       (c%"Tab", [c%"TryNextCompletion"])]),
     (c%"hankakukatakana",
      [(c%"space", [c%"TryNextCandidate"]),
       (c%"BackSpace", [c%"Delete"]),
       (c%"C-h", [c%"Delete"]),
       (c%"C-j", [c%"ConfirmAs(Ascii)", c%"ChangeCompositionMode(Direct)"]),
       (c%"C-q", [c%"ConfirmAs(Zenkaku)", c%"ChangeCompositionMode(Direct)"]),
       (c%"Tab", [c%"TryNextCompletion"])])]),
   (c%"composition_selection",
    [(c%"hiragana",
      [(c%"Return", [c%"ConfirmComposition"]),
       (c%"C-j", [c%"ConfirmComposition"]),
       (c%"Escape", [c%"Abort"]),
       (c%"C-g", [c%"Abort"]),
       (c%"X", [c%"Purge", c%"ChangeCompositionMode(Direct)"]),
       (c%"space", [c%"TryNextCandidate"]),
       (c%"x", [c%"TryPreviousCandidate"]),
       (c%"BackSpace", [c%"ConfirmComposition", c%"Delete"]),
       (c%"C-h", [c%"ConfirmComposition", c%"Delete"]),
       (c%"q", [c%"ConfirmComposition", c%"ChangeInputMode(Katakana)"]),
       (c%"C-q", [c%"ConfirmComposition", c%"ChangeInputMode(HankakuKatakana)"])]),
     (c%"katakana",
      [(c%"Return", [c%"ConfirmComposition", c%"ChangeCompositionMode(Direct)"]),
       (c%"C-j", [c%"ConfirmComposition", c%"ChangeCompositionMode(Direct)"]),
       (c%"Escape", [c%"Abort"]),
       (c%"C-g", [c%"Abort"]),
       (c%"X", [c%"Purge", c%"ChangeCompositionMode(Direct)"]),
       (c%"space", [c%"TryNextCandidate"]),
       (c%"x", [c%"TryPreviousCandidate"]),
       (c%"BackSpace", [c%"ConfirmComposition", c%"Delete"]),
       (c%"C-h", [c%"ConfirmComposition", c%"Delete"]),
       (c%"q", [c%"ConfirmComposition", c%"ChangeInputMode(Hiragana)"]),
       (c%"C-q", [c%"ConfirmComposition", c%"ChangeInputMode(HankakuKatakana)"])]),
     (c%"hankakukatakana",
      [(c%"Return", [c%"ConfirmComposition", c%"ChangeCompositionMode(Direct)"]),
       (c%"C-j", [c%"ConfirmComposition", c%"ChangeCompositionMode(Direct)"]),
       (c%"Escape", [c%"Abort"]),
       (c%"C-g", [c%"Abort"]),
       (c%"X", [c%"Purge", c%"ChangeCompositionMode(Direct)"]),
       (c%"space", [c%"TryNextCandidate"]),
       (c%"x", [c%"TryPreviousCandidate"]),
       (c%"BackSpace", [c%"ConfirmComposition", c%"Delete"]),
       (c%"C-h", [c%"ConfirmComposition", c%"Delete"]),
       (c%"q", [c%"ConfirmComposition", c%"ChangeInputMode(Hiragana)"]),
       (c%"C-q", [c%"ConfirmComposition", c%"ChangeInputMode(Katakana)"])])]),
   (c%"completion",
    [(c%"hiragana",
      [(c%"Return", [c%"ConfirmComposition"]),
       (c%"C-j", [c%"ConfirmComposition"]),
       (c%"Tab", [c%"NextCandidatePointer"]),
       (c%"period", [c%"NextCandidatePointer"]),
       (c%"(shift Tab)", [c%"PreviousCandidatePointer"]),
       (c%"comma", [c%"PreviousCandidatePointer"]),
       (c%"C-g", [c%"Abort"]),
       (c%"Escape", [c%"Abort"]),
       (c%"BackSpace", [c%"ConfirmComposition", c%"Delete"])]),
     (c%"katakana",
      [(c%"Return", [c%"ConfirmComposition"]),
       (c%"C-j", [c%"ConfirmComposition"]),
       (c%"Tab", [c%"NextCandidatePointer"]),
       (c%"period", [c%"NextCandidatePointer"]),
       (c%"(shift Tab)", [c%"PreviousCandidatePointer"]),
       (c%"comma", [c%"PreviousCandidatePointer"]),
       (c%"C-g", [c%"Abort"]),
       (c%"Escape", [c%"Abort"]),
       (c%"BackSpace", [c%"ConfirmComposition", c%"Delete"])]),
     (c%"hankakukatakana",
      [(c%"Return", [c%"ConfirmComposition"]),
       (c%"C-j", [c%"ConfirmComposition"]),
       (c%"Tab", [c%"NextCandidatePointer"]),
       (c%"period", [c%"NextCandidatePointer"]),
       (c%"(shift Tab)", [c%"PreviousCandidatePointer"]),
       (c%"comma", [c%"PreviousCandidatePointer"]),
       (c%"C-g", [c%"Abort"]),
       (c%"Escape", [c%"Abort"]),
       (c%"BackSpace", [c%"ConfirmComposition", c%"Delete"])])])]

/-- /repo/assets/rules/default/rule.toml. -/
def defaultText : Toml := ⟨some defaultConversionText, defaultSections⟩

/-- The lines of `[conversion]` of /repo/assets/rules/azik/rule.toml. -/
def azikConversionText : List (Str × Str × Str) :=
  [(c%"colon", c%"", c%"ー"), (c%"semicolon", c%"", c%"っ"), (c%"question", c%"", c%"？"), (c%"bracketleft", c%"", c%"「"),
   (c%"bracketright", c%"", c%"」"), (c%"minus", c%"", c%"ー"), (c%"q", c%"", c%"ん"), (c%"a", c%"", c%"あ"),
   (c%"i", c%"", c%"い"), (c%"u", c%"", c%"う"), (c%"e", c%"", c%"え"), (c%"o", c%"", c%"お"),
   (c%"ka", c%"", c%"か"), (c%"ki", c%"", c%"き"), (c%"ku", c%"", c%"く"), (c%"ke", c%"", c%"け"),
   (c%"ko", c%"", c%"こ"), (c%"sa", c%"", c%"さ"), (c%"si", c%"", c%"し"), (c%"su", c%"", c%"す"),
   (c%"se", c%"", c%"せ"), (c%"so", c%"", c%"そ"), (c%"ta", c%"", c%"た"), (c%"ti", c%"", c%"ち"),
   (c%"tu", c%"", c%"つ"), (c%"te", c%"", c%"て"), (c%"to", c%"", c%"と"), (c%"na", c%"", c%"な"),
   (c%"ni", c%"", c%"に"), (c%"nu", c%"", c%"ぬ"), (c%"ne", c%"", c%"ね"), (c%"no", c%"", c%"の"),
   (c%"ha", c%"", c%"は"), (c%"hi", c%"", c%"ひ"), (c%"hu", c%"", c%"ふ"), (c%"he", c%"", c%"へ"),
   (c%"ho", c%"", c%"ほ"), (c%"fu", c%"", c%"ふ"), (c%"ma", c%"", c%"ま"), (c%"mi", c%"", c%"み"),
   (c%"m u", c%"", c%"む"), (c%"me", c%"", c%"め"), (c%"mo", c%"", c%"も"), (c%"ya", c%"", c%"や"),
   (c%"yu", c%"", c%"ゆ"), (c%"yo", c%"", c%"よ"), (c%"ra", c%"", c%"ら"), (c%"ri", c%"", c%"り"),
   (c%"ru", c%"", c%"る"), (c%"re", c%"", c%"れ"), (c%"ro", c%"", c%"ろ"), (c%"wa", c%"", c%"わ"),
   (c%"wo", c%"", c%"を"), (c%"kz", c%"", c%"かん"), (c%"kn", c%"", c%"かん"), (c%"kk", c%"", c%"きん"),
   (c%"kj", c%"", c%"くん"), (c%"kd", c%"", c%"けん"), (c%"kl", c%"", c%"こん"), (c%"sz", c%"", c%"さん"),
   (c%"sn", c%"", c%"さん"), (c%"sk", c%"", c%"しん"), (c%"sj", c%"", c%"すん"), (c%"sd", c%"", c%"せん"),
   (c%"sl", c%"", c%"そん"), (c%"tz", c%"", c%"たん"), (c%"tn", c%"", c%"たん"), (c%"tk", c%"", c%"ちん"),
   (c%"tj", c%"", c%"つん"), (c%"td", c%"", c%"てん"), (c%"tl", c%"", c%"とん"), (c%"nz", c%"", c%"なん"),
   (c%"nn", c%"", c%"ん"), (c%"nk", c%"", c%"にん"), (c%"nj", c%"", c%"ぬん"), (c%"nd", c%"", c%"ねん"),
   (c%"nl", c%"", c%"のん"), (c%"hz", c%"", c%"はん"), (c%"hn", c%"", c%"はん"), (c%"hk", c%"", c%"ひん"),
   (c%"hj", c%"", c%"ふん"), (c%"hd", c%"", c%"へん"), (c%"hl", c%"", c%"ほん"), (c%"fz", c%"", c%"ふぁん"),
   (c%"fn", c%"", c%"ふぁん"), (c%"fk", c%"", c%"ふぃん"), (c%"fj", c%"", c%"ふん"), (c%"fd", c%"", c%"ふぇん"),
   (c%"fl", c%"", c%"ふぉん"), (c%"mz", c%"", c%"まん"), (c%"mk", c%"", c%"みん"), (c%"mj", c%"", c%"むん"),
   (c%"md", c%"", c%"めん"), (c%"ml", c%"", c%"もん"), (c%"yz", c%"", c%"やん"), (c%"yn", c%"", c%"やん"),
   (c%"yj", c%"", c%"ゆん"), (c%"yl", c%"", c%"よん"), (c%"rz", c%"", c%"らん"), (c%"rn", c%"", c%"らん"),
   (c%"rk", c%"", c%"りん"), (c%"rj", c%"", c%"るん"), (c%"rd", c%"", c%"れん"), (c%"rl", c%"", c%"ろん"),
   (c%"wz", c%"", c%"わん"), (c%"wn", c%"", c%"わん"), (c%"wk", c%"", c%"うぃん"), (c%"wd", c%"", c%"うぇん"),
   (c%"wl", c%"", c%"うぉん"), (c%"kq", c%"", c%"かい"), (c%"kh", c%"", c%"くう"), (c%"kw", c%"", c%"けい"),
   (c%"kp", c%"", c%"こう"), (c%"sq", c%"", c%"さい"), (c%"sh", c%"", c%"すう"), (c%"sw", c%"", c%"せい"),
   (c%"sp", c%"", c%"そう"), (c%"tq", c%"", c%"たい"), (c%"th", c%"", c%"つう"), (c%"tw", c%"", c%"てい"),
   (c%"tp", c%"", c%"とう"), (c%"nq", c%"", c%"ない"), (c%"nh", c%"", c%"ぬう"), (c%"nw", c%"", c%"ねい"),
   (c%"np", c%"", c%"のう"), (c%"hq", c%"", c%"はい"), (c%"hh", c%"", c%"ふう"), (c%"hw", c%"", c%"へい"),
   (c%"hp", c%"", c%"ほう"), (c%"fq", c%"", c%"ふぁい"), (c%"fh", c%"", c%"ふう"), (c%"fw", c%"", c%"ふぇい"),
   (c%"fp", c%"", c%"ふぉー"), (c%"mq", c%"", c%"まい"), (c%"mh", c%"", c%"むう"), (c%"mw", c%"", c%"めい"),
   (c%"mp", c%"", c%"もう"), (c%"yq", c%"", c%"やい"), (c%"yh", c%"", c%"ゆう"), (c%"yp", c%"", c%"よう"),
   (c%"rq", c%"", c%"らい"), (c%"rh", c%"", c%"るう"), (c%"rw", c%"", c%"れい"), (c%"rp", c%"", c%"ろう"),
   (c%"wq", c%"", c%"わい"), (c%"wp", c%"", c%"うぉー"), (c%"ga", c%"", c%"が"), (c%"gi", c%"", c%"ぎ"),
   (c%"gu", c%"", c%"ぐ"), (c%"ge", c%"", c%"げ"), (c%"go", c%"", c%"ご"), (c%"gz", c%"", c%"がん"),
   (c%"gn", c%"", c%"がん"), (c%"gk", c%"", c%"ぎん"), (c%"gj", c%"", c%"ぐん"), (c%"gd", c%"", c%"げん"),
   (c%"gl", c%"", c%"ごん"), (c%"gq", c%"", c%"がい"), (c%"gh", c%"", c%"ぐう"), (c%"gw", c%"", c%"げい"),
   (c%"gp", c%"", c%"ごう"), (c%"za", c%"", c%"ざ"), (c%"zi", c%"", c%"じ"), (c%"zu", c%"", c%"ず"),
   (c%"ze", c%"", c%"ぜ"), (c%"zo", c%"", c%"ぞ"), (c%"zz", c%"", c%"ざん"), (c%"zn", c%"", c%"ざん"),
   (c%"zk", c%"", c%"じん"), (c%"zj", c%"", c%"ずん"), (c%"zd", c%"", c%"ぜん"), (c%"zl", c%"", c%"ぞん"),
   (c%"zq", c%"", c%"ざい"), (c%"zh", c%"", c%"ずう"), (c%"zw", c%"", c%"ぜい"), (c%"zp", c%"", c%"ぞう"),
   (c%"da", c%"", c%"だ"), (c%"di", c%"", c%"ぢ"), (c%"du", c%"", c%"づ"), (c%"de", c%"", c%"で"),
   (c%"do", c%"", c%"ど"), (c%"dz", c%"", c%"だん"), (c%"dn", c%"", c%"だん"), (c%"dk", c%"", c%"ぢん"),
   (c%"dj", c%"", c%"づん"), (c%"dd", c%"", c%"でん"), (c%"dl", c%"", c%"どん"), (c%"dq", c%"", c%"だい"),
   (c%"dh", c%"", c%"づう"), (c%"dw", c%"", c%"でい"), (c%"dp", c%"", c%"どう"), (c%"ba", c%"", c%"ば"),
   (c%"bi", c%"", c%"び"), (c%"bu", c%"", c%"ぶ"), (c%"be", c%"", c%"べ"), (c%"bo", c%"", c%"ぼ"),
   (c%"bz", c%"", c%"ばん"), (c%"bn", c%"", c%"ばん"), (c%"bk", c%"", c%"びん"), (c%"bj", c%"", c%"ぶん"),
   (c%"bd", c%"", c%"べん"), (c%"bl", c%"", c%"ぼん"), (c%"bq", c%"", c%"ばい"), (c%"bh", c%"", c%"ぶう"),
   (c%"bw", c%"", c%"べい"), (c%"bp", c%"", c%"ぼう"), (c%"pa", c%"", c%"ぱ"), (c%"pi", c%"", c%"ぴ"),
   (c%"pu", c%"", c%"ぷ"), (c%"pe", c%"", c%"ぺ"), (c%"po", c%"", c%"ぽ"), (c%"pz", c%"", c%"ぱん"),
   (c%"pn", c%"", c%"ぱん"), (c%"pk", c%"", c%"ぴん"), (c%"pj", c%"", c%"ぷん"), (c%"pd", c%"", c%"ぺん"),
   (c%"pl", c%"", c%"ぽん"), (c%"pq", c%"", c%"ぱい"), (c%"ph", c%"", c%"ぷう"), (c%"pw", c%"", c%"ぺい"),
   (c%"pp", c%"", c%"ぽう"), (c%"kya", c%"", c%"きゃ"), (c%"kyu", c%"", c%"きゅ"), (c%"kye", c%"", c%"きぇ"),
   (c%"kyo", c%"", c%"きょ"), (c%"kyz", c%"", c%"きゃん"), (c%"kyn", c%"", c%"きゃん"), (c%"kyj", c%"", c%"きゅん"),
   (c%"kyd", c%"", c%"きぇん"), (c%"kyl", c%"", c%"きょん"), (c%"kyq", c%"", c%"きゃい"), (c%"kyh", c%"", c%"きゅう"),
   (c%"kyw", c%"", c%"きぇい"), (c%"kyp", c%"", c%"きょう"), (c%"kga", c%"", c%"きゃ"), (c%"kgu", c%"", c%"きゅ"),
   (c%"kge", c%"", c%"きぇ"), (c%"kgo", c%"", c%"きょ"), (c%"kgz", c%"", c%"きゃん"), (c%"kgn", c%"", c%"きゃん"),
   (c%"kgj", c%"", c%"きゅん"), (c%"kgd", c%"", c%"きぇん"), (c%"kgl", c%"", c%"きょん"), (c%"kgq", c%"", c%"きゃい"),
   (c%"kgh", c%"", c%"きゅう"), (c%"kgw", c%"", c%"きぇい"), (c%"kgp", c%"", c%"きょう"), (c%"sya", c%"", c%"しゃ"),
   (c%"syu", c%"", c%"しゅ"), (c%"sye", c%"", c%"しぇ"), (c%"syo", c%"", c%"しょ"), (c%"syz", c%"", c%"しゃん"),
   (c%"syn", c%"", c%"しゃん"), (c%"syj", c%"", c%"しゅん"), (c%"syd", c%"", c%"しぇん"), (c%"syl", c%"", c%"しょん"),
   (c%"syq", c%"", c%"しゃい"), (c%"syh", c%"", c%"しゅう"), (c%"syw", c%"", c%"しぇい"), (c%"syp", c%"", c%"しょう"),
   (c%"xa", c%"", c%"しゃ"), (c%"xu", c%"", c%"しゅ"), (c%"xe", c%"", c%"しぇ"), (c%"xo", c%"", c%"しょ"),
   (c%"xz", c%"", c%"しゃん"), (c%"xn", c%"", c%"しゃん"), (c%"xj", c%"", c%"しゅん"), (c%"xd", c%"", c%"しぇん"),
   (c%"xl", c%"", c%"しょん"), (c%"xq", c%"", c%"しゃい"), (c%"xh", c%"", c%"しゅう"), (c%"xw", c%"", c%"しぇい"),
   (c%"xp", c%"", c%"しょう"), (c%"tya", c%"", c%"ちゃ"), (c%"tyu", c%"", c%"ちゅ"), (c%"tye", c%"", c%"ちぇ"),
   (c%"tyo", c%"", c%"ちょ"), (c%"tyz", c%"", c%"ちゃん"), (c%"tyn", c%"", c%"ちゃん"), (c%"tyj", c%"", c%"ちゅん"),
   (c%"tyd", c%"", c%"ちぇん"), (c%"tyl", c%"", c%"ちょん"), (c%"tyq", c%"", c%"ちゃい"), (c%"tyh", c%"", c%"ちゅう"),
   (c%"tyw", c%"", c%"ちぇい"), (c%"typ", c%"", c%"ちょう"), (c%"ca", c%"", c%"ちゃ"), (c%"cu", c%"", c%"ちゅ"),
   (c%"ce", c%"", c%"ちぇ"), (c%"co", c%"", c%"ちょ"), (c%"cz", c%"", c%"ちゃん"), (c%"cn", c%"", c%"ちゃん"),
   (c%"cj", c%"", c%"ちゅん"), (c%"cd", c%"", c%"ちぇん"), (c%"cl", c%"", c%"ちょん"), (c%"cq", c%"", c%"ちゃい"),
   (c%"ch", c%"", c%"ちゅう"), (c%"cw", c%"", c%"ちぇい"), (c%"cp", c%"", c%"ちょう"), (c%"nya", c%"", c%"にゃ"),
   (c%"nyu", c%"", c%"にゅ"), (c%"nye", c%"", c%"にぇ"), (c%"nyo", c%"", c%"にょ"), (c%"nyz", c%"", c%"にゃん"),
   (c%"nyn", c%"", c%"にゃん"), (c%"nyj", c%"", c%"にゅん"), (c%"nyd", c%"", c%"にぇん"), (c%"nyl", c%"", c%"にょん"),
   (c%"nyq", c%"", c%"にゃい"), (c%"nyh", c%"", c%"にゅう"), (c%"nyw", c%"", c%"にぇい"), (c%"nyp", c%"", c%"にょう"),
   (c%"nga", c%"", c%"にゃ"), (c%"ngu", c%"", c%"にゅ"), (c%"nge", c%"", c%"にぇ"), (c%"ngo", c%"", c%"にょ"),
   (c%"ngz", c%"", c%"にゃん"), (c%"ngn", c%"", c%"にゃん"), (c%"ngj", c%"", c%"にゅん"), (c%"ngd", c%"", c%"にぇん"),
   (c%"ngl", c%"", c%"にょん"), (c%"ngq", c%"", c%"にゃい"), (c%"ngh", c%"", c%"にゅう"), (c%"ngw", c%"", c%"にぇい"),
   (c%"ngp", c%"", c%"にょう"), (c%"hya", c%"", c%"ひゃ"), (c%"hyu", c%"", c%"ひゅ"), (c%"hye", c%"", c%"ひぇ"),
   (c%"hyo", c%"", c%"ひょ"), (c%"hyz", c%"", c%"ひゃん"), (c%"hyn", c%"", c%"ひゃん"), (c%"hyj", c%"", c%"ひゅん"),
   (c%"hyd", c%"", c%"ひぇん"), (c%"hyl", c%"", c%"ひょん"), (c%"hyq", c%"", c%"ひゃい"), (c%"hyh", c%"", c%"ひゅう"),
   (c%"hyw", c%"", c%"ひぇい"), (c%"hyp", c%"", c%"ひょう"), (c%"hga", c%"", c%"ひゃ"), (c%"hgu", c%"", c%"ひゅ"),
   (c%"hge", c%"", c%"ひぇ"), (c%"hgo", c%"", c%"ひょ"), (c%"hgz", c%"", c%"ひゃん"), (c%"hgn", c%"", c%"ひゃん"),
   (c%"hgj", c%"", c%"ひゅん"), (c%"hgd", c%"", c%"ひぇん"), (c%"hgl", c%"", c%"ひょん"), (c%"hgq", c%"", c%"ひゃい"),
   (c%"hgh", c%"", c%"ひゅう"), (c%"hgw", c%"", c%"ひぇい"), (c%"hgp", c%"", c%"ひょう"), (c%"mya", c%"", c%"みゃ"),
   (c%"myu", c%"", c%"みゅ"), (c%"mye", c%"", c%"みぇ"), (c%"myo", c%"", c%"みょ"), (c%"myz", c%"", c%"みゃん"),
   (c%"myn", c%"", c%"みゃん"), (c%"myj", c%"", c%"みゅん"), (c%"myd", c%"", c%"みぇん"), (c%"myl", c%"", c%"みょん"),
   (c%"myq", c%"", c%"みゃい"), (c%"myh", c%"", c%"みゅう"), (c%"myw", c%"", c%"みぇい"), (c%"myp", c%"", c%"みょう"),
   (c%"mga", c%"", c%"みゃ"), (c%"mgu", c%"", c%"みゅ"), (c%"mge", c%"", c%"みぇ"), (c%"mgo", c%"", c%"みょ"),
   (c%"mgz", c%"", c%"みゃん"), (c%"mgn", c%"", c%"みゃん"), (c%"mgj", c%"", c%"みゅん"), (c%"mgd", c%"", c%"みぇん"),
   (c%"mgl", c%"", c%"みょん"), (c%"mgq", c%"", c%"みゃい"), (c%"mgh", c%"", c%"みゅう"), (c%"mgw", c%"", c%"みぇい"),
   (c%"mgp", c%"", c%"みょう"), (c%"rya", c%"", c%"りゃ"), (c%"ryu", c%"", c%"りゅ"), (c%"rye", c%"", c%"りぇ"),
   (c%"ryo", c%"", c%"りょ"), (c%"ryz", c%"", c%"りゃん"), (c%"ryn", c%"", c%"りゃん"), (c%"ryj", c%"", c%"りゅん"),
   (c%"ryd", c%"", c%"りぇん"), (c%"ryl", c%"", c%"りょん"), (c%"ryq", c%"", c%"りゃい"), (c%"ryh", c%"", c%"りゅう"),
   (c%"ryw", c%"", c%"りぇい"), (c%"ryp", c%"", c%"りょう"), (c%"gya", c%"", c%"ぎゃ"), (c%"gyu", c%"", c%"ぎゅ"),
   (c%"gye", c%"", c%"ぎぇ"), (c%"gyo", c%"", c%"ぎょ"), (c%"gyz", c%"", c%"ぎゃん"), (c%"gyn", c%"", c%"ぎゃん"),
   (c%"gyj", c%"", c%"ぎゅん"), (c%"gyd", c%"", c%"ぎぇん"), (c%"gyl", c%"", c%"ぎょん"), (c%"gyq", c%"", c%"ぎゃい"),
   (c%"gyh", c%"", c%"ぎゅう"), (c%"gyw", c%"", c%"ぎぇい"), (c%"gyp", c%"", c%"ぎょう"), (c%"zya", c%"", c%"じゃ"),
   (c%"zyu", c%"", c%"じゅ"), (c%"zye", c%"", c%"じぇ"), (c%"zyo", c%"", c%"じょ"), (c%"zyz", c%"", c%"じゃん"),
   (c%"zyn", c%"", c%"じゃん"), (c%"zyj", c%"", c%"じゅん"), (c%"zyd", c%"", c%"じぇん"), (c%"zyl", c%"", c%"じょん"),
   (c%"zyq", c%"", c%"じゃい"), (c%"zyh", c%"", c%"じゅう"), (c%"zyw", c%"", c%"じぇい"), (c%"zyp", c%"", c%"じょう"),
   (c%"ja", c%"", c%"じゃ"), (c%"ju", c%"", c%"じゅ"), (c%"je", c%"", c%"じぇ"), (c%"jo", c%"", c%"じょ"),
   (c%"jz", c%"", c%"じゃん"), (c%"jn", c%"", c%"じゃん"), (c%"jj", c%"", c%"じゅん"), (c%"jd", c%"", c%"じぇん"),
   (c%"jl", c%"", c%"じょん"), (c%"jq", c%"", c%"じゃい"), (c%"jh", c%"", c%"じゅう"), (c%"jw", c%"", c%"じぇい"),
   (c%"jp", c%"", c%"じょう"), (c%"bya", c%"", c%"びゃ"), (c%"byu", c%"", c%"びゅ"), (c%"bye", c%"", c%"びぇ"),
   (c%"byo", c%"", c%"ぴょ"), (c%"byz", c%"", c%"びゃん"), (c%"byn", c%"", c%"びゃん"), (c%"byj", c%"", c%"びゅん"),
   (c%"byd", c%"", c%"びぇん"), (c%"byl", c%"", c%"びょん"), (c%"byq", c%"", c%"びゃい"), (c%"byh", c%"", c%"びゅう"),
   (c%"byw", c%"", c%"びぇい"), (c%"byp", c%"", c%"びょう"), (c%"pya", c%"", c%"ぴゃ"), (c%"pyu", c%"", c%"ぴゅ"),
   (c%"pye", c%"", c%"ぴぇ"), (c%"pyo", c%"", c%"ぴょ"), (c%"pyz", c%"", c%"ぴゃん"), (c%"pyn", c%"", c%"ぴゃん"),
   (c%"pyj", c%"", c%"ぴゅん"), (c%"pyd", c%"", c%"ぴぇん"), (c%"pyl", c%"", c%"ぴょん"), (c%"pyq", c%"", c%"ぴゃい"),
   (c%"pyh", c%"", c%"ぴゅう"), (c%"pyw", c%"", c%"ぴぇい"), (c%"pyp", c%"", c%"ぴょう"), (c%"pga", c%"", c%"ぴゃ"),
   (c%"pgu", c%"", c%"ぴゅ"), (c%"pge", c%"", c%"ぴぇ"), (c%"pgo", c%"", c%"ぴょ"), (c%"pgz", c%"", c%"ぴゃん"),
   (c%"pgn", c%"", c%"ぴゃん"), (c%"pgj", c%"", c%"ぴゅん"), (c%"pgd", c%"", c%"ぴぇん"), (c%"pgl", c%"", c%"ぴょん"),
   (c%"pgq", c%"", c%"ぴゃい"), (c%"pgh", c%"", c%"ぴゅう"), (c%"pgw", c%"", c%"ぴぇい"), (c%"pgp", c%"", c%"ぴょう"),
   (c%"va", c%"", c%"ゔぁ"), (c%"vi", c%"", c%"ゔぃ"), (c%"vu", c%"", c%"ゔ"), (c%"ve", c%"", c%"ゔぇ"),
   (c%"vo", c%"", c%"ゔぉ"), (c%"vz", c%"", c%"ゔぁん"), (c%"vn", c%"", c%"ゔぁん"), (c%"vj", c%"", c%"ゔん"),
   (c%"vd", c%"", c%"ゔぇん"), (c%"vl", c%"", c%"ゔぉん"), (c%"vq", c%"", c%"ゔぁい"), (c%"vh", c%"", c%"ゔう"),
   (c%"vw", c%"", c%"ゔぇい"), (c%"vp", c%"", c%"ゔぉう"), (c%"tgi", c%"", c%"てぃ"), (c%"tgu", c%"", c%"とぅ"),
   (c%"tgj", c%"", c%"とぅん"), (c%"tgh", c%"", c%"とぅう"), (c%"dci", c%"", c%"でぃ"), (c%"dcu", c%"", c%"どぅ"),
   (c%"dcj", c%"", c%"どぅん"), (c%"dch", c%"", c%"どぅう"), (c%"wso", c%"", c%"うぉ"), (c%"wsl", c%"", c%"うぉん"),
   (c%"wsp", c%"", c%"うぉう"), (c%"xxa", c%"", c%"ぁ"), (c%"xxi", c%"", c%"ぃ"), (c%"xxu", c%"", c%"ぅ"),
   (c%"xxe", c%"", c%"ぇ"), (c%"xxo", c%"", c%"ぉ"), (c%"xxya", c%"", c%"ゃ"), (c%"xxyu", c%"", c%"ゅ"),
   (c%"xxyo", c%"", c%"ょ"), (c%"xxwa", c%"", c%"ゎ"), (c%"kf", c%"", c%"き"), (c%"jf", c%"", c%"じゅ"),
   (c%"hf", c%"", c%"ふ"), (c%"yf", c%"", c%"ゆ"), (c%"mf", c%"", c%"む"), (c%"nf", c%"", c%"ぬ"),
   (c%"df", c%"", c%"で"), (c%"cf", c%"", c%"ちぇ"), (c%"pf", c%"", c%"ぽん"), (c%"zc", c%"", c%"ざ"),
   (c%"zv", c%"", c%"ざい"), (c%"zx", c%"", c%"ぜい"), (c%"kt", c%"", c%"こと"), (c%"st", c%"", c%"した"),
   (c%"tt", c%"", c%"たち"), (c%"h t", c%"", c%"ひと"), (c%"wt", c%"", c%"わた"), (c%"mn", c%"", c%"もの"),
   (c%"ms", c%"", c%"ます"), (c%"ds", c%"", c%"です"), (c%"km", c%"", c%"かも"), (c%"tm", c%"", c%"ため"),
   (c%"dm", c%"", c%"でも"), (c%"kr", c%"", c%"から"), (c%"sr", c%"", c%"する"), (c%"tr", c%"", c%"たら"),
   (c%"nr", c%"", c%"なる"), (c%"yr", c%"", c%"よる"), (c%"rr", c%"", c%"られ"), (c%"zr", c%"", c%"ざる"),
   (c%"mt", c%"", c%"また"), (c%"tb", c%"", c%"たび"), (c%"nb", c%"", c%"ねば"), (c%"bt", c%"", c%"びと"),
   (c%"gr", c%"", c%"がら"), (c%"gt", c%"", c%"ごと"), (c%"nt", c%"", c%"にち"), (c%"dt", c%"", c%"だち"),
   (c%"wr", c%"", c%"われ"), (c%"xxtu", c%"", c%"っ"), (c%"tU", c%"", c%"っ")]

/-- The other tables of /repo/assets/rules/azik/rule.toml, without `[metadata]` and `[command]`, which are ignored. -/
def azikSections : List (Str × List (Str × List (Str × List Str))) :=
  [(c%"direct",
    [(c%"hiragana",
      [(c%"l", [c%"ForceKanaConvert(Hiragana)", c%"ChangeInputMode(Ascii)", c%"FlushPreviousCarryOver"]),
       (c%"L", [c%"ForceKanaConvert(Hiragana)", c%"ChangeInputMode(Zenkaku)", c%"FlushPreviousCarryOver"]),
       (c%"C-at", [c%"ForceKanaConvert(Hiragana)", c%"ChangeInputMode(HankakuKatakana)", c%"FlushPreviousCarryOver"]),
       (c%"at", [c%"ForceKanaConvert(Hiragana)", c%"ChangeInputMode(Katakana)", c%"FlushPreviousCarryOver"]),
       (c%"braceleft", [c%"ChangeCompositionMode(PreComposition)"]),
       (c%"C-j", [c%"FinishKeyEvent"]),
       (c%"C-g", [c%"Abort"]),
       (c%"C-G", [c%"Abort"]),
       (c%"Return", [c%"ConfirmDirect"]),
       (c%"C-m", [c%"ConfirmDirect"]),
       (c%"BackSpace", [c%"Delete"]),
       (c%"C-h", [c%"Delete"]),
       (c%"C-H", [c%"Delete"]),
       (c%"slash", [c%"ChangeCompositionMode(Abbreviation)"])]),
     (c%"katakana",
      [(c%"l", [c%"ForceKanaConvert(Katakana)", c%"ChangeInputMode(Ascii)", c%"FlushPreviousCarryOver"]),
       (c%"L", [c%"ForceKanaConvert(Katakana)", c%"ChangeInputMode(Zenkaku)", c%"FlushPreviousCarryOver"]),
       (c%"C-at", [c%"ForceKanaConvert(Katakana)", c%"ChangeInputMode(HankakuKatakana)", c%"FlushPreviousCarryOver"]),
       (c%"at", [c%"ForceKanaConvert(Katakana)", c%"ChangeInputMode(Hiragana)", c%"FlushPreviousCarryOver"]),
       (c%"braceleft", [c%"ChangeCompositionMode(PreComposition)"]),
       (c%"C-j", [c%"FinishKeyEvent"]),
       (c%"C-g", [c%"Abort"]),
       (c%"C-G", [c%"Abort"]),
       (c%"Return", [c%"ConfirmDirect"]),
       (c%"C-m", [c%"ConfirmDirect"]),
       (c%"BackSpace", [c%"Delete"]),
       (c%"C-h", [c%"Delete"]),
       (c%"C-H", [c%"Delete"]),
       (c%"slash", [c%"ChangeCompositionMode(Abbreviation)"])]),
     (c%"hankakukatakana",
      [(c%"l", [c%"ForceKanaConvert(HankakuKatakana)", c%"ChangeInputMode(Ascii)", c%"FlushPreviousCarryOver"]),
       (c%"L", [c%"ForceKanaConvert(HankakuKatakana)", c%"ChangeInputMode(Zenkaku)", c%"FlushPreviousCarryOver"]),
       (c%"C-at", [c%"ForceKanaConvert(HankakuKatakana)", c%"ChangeInputMode(Katakana)", c%"FlushPreviousCarryOver"]),
       (c%"at", [c%"ForceKanaConvert(HankakuKatakana)", c%"ChangeInputMode(Hiragana)", c%"FlushPreviousCarryOver"]),
       (c%"braceleft", [c%"ChangeCompositionMode(PreComposition)"]),
       (c%"C-j", [c%"FinishKeyEvent"]),
       (c%"C-g", [c%"Abort"]),
       (c%"C-G", [c%"Abort"]),
       (c%"Return", [c%"ConfirmDirect"]),
       (c%"C-m", [c%"ConfirmDirect"]),
       (c%"BackSpace", [c%"Delete"]),
       (c%"C-h", [c%"Delete"]),
       (c%"C-H", [c%"Delete"]),
       (c%"slash", [c%"ChangeCompositionMode(Abbreviation)"])]),
     (c%"zenkaku",
      [(c%"C-g", [c%"Abort"]),
       (c%"C-j", [c%"ChangeInputMode(Hiragana)"]),
       (c%"Return", [c%"ConfirmDirect"]),
       (c%"C-m", [c%"ConfirmDirect"]),
       (c%"BackSpace", [c%"Delete"]),
       (c%"C-h", [c%"Delete"]),
       (c%"C-H", [c%"Delete"])]),
     (c%"ascii",
      [(c%"C-g", [c%"Abort"]),
       (c%"C-j", [c%"ChangeInputMode(Hiragana)"]),
       (c%"Return", [c%"ConfirmDirect"]),
       (c%"C-m", [c%"ConfirmDirect"]),
       (c%"BackSpace", [c%"Delete"]),
       (c%"C-h", [c%"Delete"]),
       (c%"C-H", [c%"Delete"])])]),
   (c%"pre_composition",
    [(c%"hiragana",
      [(c%"space", [c%"TryNextCandidate"]),
       (c%"at", [c%"ForceKanaConvert(Katakana)", c%"ConfirmAs(Katakana)", c%"ChangeCompositionMode(Direct)"]),
       (c%"C-at", [c%"ConfirmAs(HankakuKatakana)", c%"ChangeCompositionMode(Direct)"]),
       (c%"C-g", [c%"ClearUnconfirmedInputs", c%"Abort"]),
       (c%"C-j", [c%"ForceKanaConvert(Hiragana)", c%"ConfirmAs(Hiragana)", c%"ChangeCompositionMode(Direct)"]),
       (c%"BackSpace", [c%"Delete"]),
       (c%"C-h", [c%"Delete"])]),
     (c%"katakana",
      [(c%"space", [c%"TryNextCandidate"]),
       (c%"at", [c%"ForceKanaConvert(Hiragana)", c%"ConfirmAs(Hiragana)", c%"ChangeCompositionMode(Direct)"]),
       (c%"C-at", [c%"ConfirmAs(HankakuKatakana)", c%"ChangeCompositionMode(Direct)"]),
       (c%"C-g", [c%"ClearUnconfirmedInputs", c%"Abort"]),
       (c%"C-j", [c%"ForceKanaConvert(Katakana)", c%"ConfirmAs(Katakana)", c%"ChangeCompositionMode(Direct)"]),
       (c%"BackSpace", [c%"Delete"]),
       (c%"C-h", [c%"Delete"])]),
     (c%"hankakukatakana",
      [(c%"space", [c%"TryNextCandidate"]),
       (c%"at", [c%"ForceKanaConvert(Hiragana)", c%"ConfirmAs(Hiragana)", c%"ChangeCompositionMode(Direct)"]),
       (c%"C-at", [c%"ConfirmAs(Katakana)", c%"ChangeCompositionMode(Direct)"]),
       (c%"C-g", [c%"ClearUnconfirmedInputs", c%"Abort"]),
       (c%"C-j", [c%"ForceKanaConvert(HankakuKatakana)", c%"ConfirmAs(HankakuKatakana)", c%"ChangeCompositionMode(Direct)"]),
       (c%"BackSpace", [c%"Delete"]),
       (c%"C-h", [c%"Delete"])])]),
   (c%"pre_compisition_okurigana",
    [(c%"hiragana",
      [(c%"space", [c%"TryNextCandidate"]),
       (c%"at", [c%"ForceKanaConvert(Katakana)", c%"ConfirmAs(Katakana)", c%"ChangeCompositionMode(Direct)"]),
       (c%"C-at", [c%"ConfirmAs(HankakuKatakana)", c%"ChangeCompositionMode(Direct)"]),
       (c%"C-g", [c%"ClearUnconfirmedInputs", c%"Abort"]),
       (c%"C-j", [c%"ForceKanaConvert(Hiragana)", c%"ConfirmAs(Hiragana)", c%"ChangeCompositionMode(Direct)"]),
       (c%"BackSpace", [c%"Delete"]),
       (c%"C-h", [c%"Delete"])]),
     (c%"katakana",
      [(c%"space", [c%"TryNextCandidate"]),
       (c%"at", [c%"ForceKanaConvert(Hiragana)", c%"ConfirmAs(Hiragana)", c%"ChangeCompositionMode(Direct)"]),
       (c%"C-at", [c%"ConfirmAs(HankakuKatakana)", c%"ChangeCompositionMode(Direct)"]),
       (c%"C-g", [c%"ClearUnconfirmedInputs", c%"Abort"]),
       (c%"C-j", [c%"ForceKanaConvert(Katakana)", c%"ConfirmAs(Katakana)", c%"ChangeCompositionMode(Direct)"]),
       (c%"BackSpace", [c%"Delete"]),
       (c%"C-h", [c%"Delete"])]),
     (c%"hankakukatakana",
      [(c%"space", [c%"TryNextCandidate"]),
       (c%"at", [c%"ForceKanaConvert(Hiragana)", c%"ConfirmAs(Hiragana)", c%"ChangeCompositionMode(Direct)"]),
       (c%"C-at", [c%"ConfirmAs(Katakana)", c%"ChangeCompositionMode(Direct)"]),
       (c%"C-g", [c%"ClearUnconfirmedInputs", c%"Abort"]),
       (c%"C-j", [c%"ForceKanaConvert(HankakuKatakana)", c%"ConfirmAs(HankakuKatakana)", c%"ChangeCompositionMode(Direct)"]),
       (c%"BackSpace", [c%"Delete"]),
       (c%"C-h", [c%"Delete"])])]),
   (c%"abbreviation",
    [(c%"hiragana",
      [(c%"space", [c%"TryNextCandidate"]),
       (c%"BackSpace", [c%"Delete"]),
       (c%"C-h", [c%"Delete"]),
       (c%"C-j", [c%"ConfirmAs(Ascii)", c%"ChangeCompositionMode(Direct)"]),
       (c%"C-q", [c%"ConfirmAs(Zenkaku)", c%"ChangeCompositionMode(Direct)"])]),
     (c%"katakana",
      [(c%"space", [c%"TryNextCandidate"]),
       (c%"BackSpace", [c%"Delete"]),
       (c%"C-h", [c%"Delete"]),
       (c%"C-j", [c%"ConfirmAs(Ascii)", c%"ChangeCompositionMode(Direct)"]),
       (c%"C-q", [c%"ConfirmAs(Zenkaku)", c%"ChangeCompositionMode(Direct)"])]),
     (c%"hankakukatakana",
      [(c%"space", [c%"TryNextCandidate"]),
       (c%"BackSpace", [c%"Delete"]),
       (c%"C-h", [c%"Delete"]),
       (c%"C-j", [c%"ConfirmAs(Ascii)", c%"ChangeCompositionMode(Direct)"]),
       (c%"C-q", [c%"ConfirmAs(Zenkaku)", c%"ChangeCompositionMode(Direct)"])])]),
   (c%"composition_selection",
    [(c%"hiragana",
      [(c%"Return", [c%"ConfirmComposition"]),
       (c%"C-j", [c%"ConfirmComposition"]),
       (c%"Escape", [c%"Abort"]),
       (c%"C-g", [c%"Abort"]),
       (c%"X", [c%"Purge", c%"ChangeCompositionMode(Direct)"]),
       (c%"space", [c%"TryNextCandidate"]),
       (c%"x", [c%"TryPreviousCandidate"]),
       (c%"BackSpace", [c%"ConfirmComposition", c%"Delete"]),
       (c%"C-h", [c%"ConfirmComposition", c%"Delete"]),
       (c%"at", [c%"ConfirmComposition", c%"ChangeInputMode(Katakana)"]),
       (c%"C-at", [c%"ConfirmComposition", c%"ChangeInputMode(HankakuKatakana)"])]),
     (c%"katakana",
      [(c%"Return", [c%"ConfirmComposition"]),
       (c%"C-j", [c%"ConfirmComposition"]),
       (c%"Escape", [c%"Abort"]),
       (c%"C-g", [c%"Abort"]),
       (c%"X", [c%"Purge", c%"ChangeCompositionMode(Direct)"]),
       (c%"space", [c%"TryNextCandidate"]),
       (c%"BackSpace", [c%"ConfirmComposition", c%"Delete"]),
       (c%"C-h", [c%"ConfirmComposition", c%"Delete"]),
       (c%"at", [c%"ConfirmComposition", c%"ChangeInputMode(Hiragana)"]),
       (c%"C-at", [c%"ConfirmComposition", c%"ChangeInputMode(HankakuKatakana)"])]),
     (c%"hankakukatakana",
      [(c%"Return", [c%"ConfirmComposition"]),
       (c%"C-j", [c%"ConfirmComposition"]),
       (c%"Escape", [c%"Abort"]),
       (c%"C-g", [c%"Abort"]),
       (c%"X", [c%"Purge", c%"ChangeCompositionMode(Direct)"]),
       (c%"space", [c%"TryNextCandidate"]),
       (c%"BackSpace", [c%"ConfirmComposition", c%"Delete"]),
       (c%"C-h", [c%"ConfirmComposition", c%"Delete"]),
       (c%"at", [c%"ConfirmComposition", c%"ChangeInputMode(Hiragana)"]),
       (c%"C-at", [c%"ConfirmComposition", c%"ChangeInputMode(Katakana)"])])]),
   (c%"completion",
    [(c%"hiragana",
      [(c%"Return", [c%"ConfirmComposition"]),
       (c%"C-j", [c%"ConfirmComposition"]),
       (c%"Tab", [c%"NextCandidatePointer"]),
       (c%"period", [c%"NextCandidatePointer"]),
       (c%"(shift Tab)", [c%"PreviousCandidatePointer"]),
       (c%"comma", [c%"PreviousCandidatePointer"]),
       (c%"C-g", [c%"Abort"]),
       (c%"Escape", [c%"Abort"]),
       (c%"BackSpace", [c%"ConfirmComposition", c%"Delete"])]),
     (c%"katakana",
      [(c%"Return", [c%"ConfirmComposition"]),
       (c%"C-j", [c%"ConfirmComposition"]),
       (c%"Tab", [c%"NextCandidatePointer"]),
       (c%"period", [c%"NextCandidatePointer"]),
       (c%"(shift Tab)", [c%"PreviousCandidatePointer"]),
       (c%"comma", [c%"PreviousCandidatePointer"]),
       (c%"C-g", [c%"Abort"]),
       (c%"Escape", [c%"Abort"]),
       (c%"BackSpace", [c%"ConfirmComposition", c%"Delete"])]),
     (c%"hankakukatakana",
      [(c%"Return", [c%"ConfirmComposition"]),
       (c%"C-j", [c%"ConfirmComposition"]),
       (c%"Tab", [c%"NextCandidatePointer"]),
       (c%"period", [c%"NextCandidatePointer"]),
       (c%"(shift Tab)", [c%"PreviousCandidatePointer"]),
       (c%"comma", [c%"PreviousCandidatePointer"]),
       (c%"C-g", [c%"Abort"]),
       (c%"Escape", [c%"Abort"]),
       (c%"BackSpace", [c%"ConfirmComposition", c%"Delete"])])])]

/-- /repo/assets/rules/azik/rule.toml. -/
def azikText : Toml := ⟨some azikConversionText, azikSections⟩

end Cskk.Assets
