import Verif.Model.TomlText

/-! # The lines of the `.toml` files of /repo/assets (generated by `tools/gentoml.py`, do not edit) -/

namespace Cskk.Assets

/-- Lines with a line feed between them. -/
def joinLines : List Str → Str
  | [] => []
  | [l] => l
  | l :: ls => l ++ '\n' :: joinLines ls

/-- Lines 1-22 of /repo/assets/rules/metadata.toml. -/
def metadataFile0 : List Str :=
  [c%"# 全てのルールを列挙する。最初のものがデフォルトとして扱われる。",
   c%"# UTF-8 only",
   c%"# このrulesディレクトリごと $HOME/.local/share/libcskk/rules に移動してユーザー用にカスタマイズできる。",
   c%"# [default] id:defaultのメタデータ。defaultは必須。idが他のものと被ってはいけない。",
   c%"[default]",
   c%"# name: Display name",
   c%"name = \"Default\"",
   c%"# description: Display description for users",
   c%"description = \"default rule\"",
   c%"# path: directory path name to search rule.toml",
   c%"path = \"default\"",
   c%"",
   c%"[azik]",
   c%"name = \"AZIK\"",
   c%"description = \"AZIKルール\"",
   c%"path = \"azik\"",
   c%"",
   c%"# 書式は以下の通り",
   c%"# [unique_id] ([A-Za-z0-9_-]の文字列)",
   c%"#name = \"UTF-8文字列\"",
   c%"#description = \"UTF-8文字列\"",
   c%"#path = \"UTF-8文字列\" ([A-Za-z0-9_-]を強く推奨する)"]

/-- The lines of /repo/assets/rules/metadata.toml. -/
def metadataFileLines : List (List Str) :=
  [metadataFile0]

/-- The text of /repo/assets/rules/metadata.toml. -/
def metadataFile : Str := joinLines metadataFileLines.flatten

/-- Lines 1-40 of /repo/assets/rules/default/rule.toml. -/
def defaultFile0 : List Str :=
  [c%"# Rule toml definition not determined yet",
   c%"",
   c%"[metadata]",
   c%"# 名前。必須。",
   c%"name = \"default\"",
   c%"# 説明文。必須。",
   c%"description = \"default typing rule\"",
   c%"",
   c%"# conversion:",
   c%"# Key-Valueの配列 ローマ字変換規則",
   c%"#",
   c%"# Keyはkeysym列",
   c%"# スペース区切りで各wordがKeysymであればそのKeysymとして、そうでなければ各バイトをasciiとみなした文字のKeysymとして変換する。",
   c%"# 変換できなかったものは無視される。",
   c%"# 名称は https://github.com/xkbcommon/libxkbcommon/blob/master/include/xkbcommon/xkbcommon-keysyms.h による。",
   c%"# ascii文字(0x20..=0x7E)の範囲のみ変換する。",
   c%"# 例:",
   c%"# \"space 無視\" -> KEY_space ('無視'はascii文字ではないため)",
   c%"# \"lk Shift_L\" -> KEY_l, KEY_k, KEY_Shift_L",
   c%"# \"ab\" -> KEY_a, KEY_b",
   c%"# \"a t\" -> KEY_a, KEY_t",
   c%"# \"at\" -> KEY_at",
   c%"# 最後の例のように特に短い名称のKeysymは対応するKeysym扱いされるので、2文字で2つのKeysym扱いしたい場合はスペースを間に入れる必要がある。",
   c%"# 2文字の\"Up\", \"ch\", \"at\", \"mu\", \"AE\", \"ae\", \"OE\", \"oe\", \"ht\", \"ff\", \"cr\", \"lf\", \"nl\", \"vt\", \"IO\"には特に注意が必要",
   c%"#",
   c%"# Valueは2要素の配列",
   c%"# 最初の要素はkeysym列、かな変換後に残る入力(carryover)として使われる。",
   c%"# 2つ目の要素が変換先文字列。",
   c%"#",
   c%"# 例として kk = [\"k\", \"っ\"] と定義がある場合、k kと入力した際に\"っ\"が入力され、\"k\"が入力待ちの状態で残る。",
   c%"[conversion]",
   c%"colon = [\"\", \"：\"]",
   c%"semicolon = [\"\", \"；\"]",
   c%"question = [\"\", \"？\"]",
   c%"bracketleft = [\"\", \"「\"]",
   c%"bracketright = [\"\", \"」\"]",
   c%"minus = [\"\", \"ー\"]",
   c%"a = [\"\", \"あ\"]",
   c%"ba = [\"\", \"ば\"]",
   c%"bb = [\"b\", \"っ\"]"]

/-- Lines 41-80 of /repo/assets/rules/default/rule.toml. -/
def defaultFile1 : List Str :=
  [c%"be = [\"\", \"べ\"]",
   c%"bi = [\"\", \"び\"]",
   c%"bo = [\"\", \"ぼ\"]",
   c%"bu = [\"\", \"ぶ\"]",
   c%"bya = [\"\", \"びゃ\"]",
   c%"bye = [\"\", \"びぇ\"]",
   c%"byi = [\"\", \"びぃ\"]",
   c%"byo = [\"\", \"びょ\"]",
   c%"byu = [\"\", \"びゅ\"]",
   c%"cc = [\"c\", \"っ\"]",
   c%"cha = [\"\", \"ちゃ\"]",
   c%"che = [\"\", \"ちぇ\"]",
   c%"chi = [\"\", \"ち\"]",
   c%"cho = [\"\", \"ちょ\"]",
   c%"chu = [\"\", \"ちゅ\"]",
   c%"cya = [\"\", \"ちゃ\"]",
   c%"cye = [\"\", \"ちぇ\"]",
   c%"cyi = [\"\", \"ちぃ\"]",
   c%"cyo = [\"\", \"ちょ\"]",
   c%"cyu = [\"\", \"ちゅ\"]",
   c%"da = [\"\", \"だ\"]",
   c%"dd = [\"d\", \"っ\"]",
   c%"de = [\"\", \"で\"]",
   c%"dha = [\"\", \"でゃ\"]",
   c%"dhe = [\"\", \"でぇ\"]",
   c%"dhi = [\"\", \"でぃ\"]",
   c%"dho = [\"\", \"でょ\"]",
   c%"dhu = [\"\", \"でゅ\"]",
   c%"di = [\"\", \"ぢ\"]",
   c%"do = [\"\", \"ど\"]",
   c%"du = [\"\", \"づ\"]",
   c%"dya = [\"\", \"ぢゃ\"]",
   c%"dye = [\"\", \"ぢぇ\"]",
   c%"dyi = [\"\", \"ぢぃ\"]",
   c%"dyo = [\"\", \"ぢょ\"]",
   c%"dyu = [\"\", \"ぢゅ\"]",
   c%"e = [\"\", \"え\"]",
   c%"fa = [\"\", \"ふぁ\"]",
   c%"fe = [\"\", \"ふぇ\"]",
   c%"\"f f\" = [\"f\", \"っ\"]"]

/-- Lines 81-120 of /repo/assets/rules/default/rule.toml. -/
def defaultFile2 : List Str :=
  [c%"fi = [\"\", \"ふぃ\"]",
   c%"fo = [\"\", \"ふぉ\"]",
   c%"fu = [\"\", \"ふ\"]",
   c%"fya = [\"\", \"ふゃ\"]",
   c%"fye = [\"\", \"ふぇ\"]",
   c%"fyi = [\"\", \"ふぃ\"]",
   c%"fyo = [\"\", \"ふょ\"]",
   c%"fyu = [\"\", \"ふゅ\"]",
   c%"ga = [\"\", \"が\"]",
   c%"ge = [\"\", \"げ\"]",
   c%"gg = [\"g\", \"っ\"]",
   c%"gi = [\"\", \"ぎ\"]",
   c%"go = [\"\", \"ご\"]",
   c%"gu = [\"\", \"ぐ\"]",
   c%"gya = [\"\", \"ぎゃ\"]",
   c%"gye = [\"\", \"ぎぇ\"]",
   c%"gyi = [\"\", \"ぎぃ\"]",
   c%"gyo = [\"\", \"ぎょ\"]",
   c%"gyu = [\"\", \"ぎゅ\"]",
   c%"ha = [\"\", \"は\"]",
   c%"he = [\"\", \"へ\"]",
   c%"hh = [\"h\", \"っ\"]",
   c%"hi = [\"\", \"ひ\"]",
   c%"ho = [\"\", \"ほ\"]",
   c%"hu = [\"\", \"ふ\"]",
   c%"hya = [\"\", \"ひゃ\"]",
   c%"hye = [\"\", \"ひぇ\"]",
   c%"hyi = [\"\", \"ひぃ\"]",
   c%"hyo = [\"\", \"ひょ\"]",
   c%"hyu = [\"\", \"ひゅ\"]",
   c%"i = [\"\", \"い\"]",
   c%"ja = [\"\", \"じゃ\"]",
   c%"je = [\"\", \"じぇ\"]",
   c%"ji = [\"\", \"じ\"]",
   c%"jj = [\"j\", \"っ\"]",
   c%"jo = [\"\", \"じょ\"]",
   c%"ju = [\"\", \"じゅ\"]",
   c%"jya = [\"\", \"じゃ\"]",
   c%"jye = [\"\", \"じぇ\"]",
   c%"jyi = [\"\", \"じぃ\"]"]

/-- Lines 121-160 of /repo/assets/rules/default/rule.toml. -/
def defaultFile3 : List Str :=
  [c%"jyo = [\"\", \"じょ\"]",
   c%"jyu = [\"\", \"じゅ\"]",
   c%"ka = [\"\", \"か\"]",
   c%"ke = [\"\", \"け\"]",
   c%"ki = [\"\", \"き\"]",
   c%"kk = [\"k\", \"っ\"]",
   c%"ko = [\"\", \"こ\"]",
   c%"ku = [\"\", \"く\"]",
   c%"kya = [\"\", \"きゃ\"]",
   c%"kye = [\"\", \"きぇ\"]",
   c%"kyi = [\"\", \"きぃ\"]",
   c%"kyo = [\"\", \"きょ\"]",
   c%"kyu = [\"\", \"きゅ\"]",
   c%"ma = [\"\", \"ま\"]",
   c%"me = [\"\", \"め\"]",
   c%"mi = [\"\", \"み\"]",
   c%"mm = [\"m\", \"っ\"]",
   c%"mo = [\"\", \"も\"]",
   c%"\"m u\" = [\"\", \"む\"]",
   c%"mya = [\"\", \"みゃ\"]",
   c%"mye = [\"\", \"みぇ\"]",
   c%"myi = [\"\", \"みぃ\"]",
   c%"myo = [\"\", \"みょ\"]",
   c%"myu = [\"\", \"みゅ\"]",
   c%"n = [\"\", \"ん\"]",
   c%"na = [\"\", \"な\"]",
   c%"ne = [\"\", \"ね\"]",
   c%"ni = [\"\", \"に\"]",
   c%"nn = [\"\", \"ん\"]",
   c%"no = [\"\", \"の\"]",
   c%"nu = [\"\", \"ぬ\"]",
   c%"nya = [\"\", \"にゃ\"]",
   c%"nye = [\"\", \"にぇ\"]",
   c%"nyi = [\"\", \"にぃ\"]",
   c%"nyo = [\"\", \"にょ\"]",
   c%"nyu = [\"\", \"にゅ\"]",
   c%"\"n quotedbl\" = [\"\", \"ん\"]",
   c%"o = [\"\", \"お\"]",
   c%"pa = [\"\", \"ぱ\"]",
   c%"pe = [\"\", \"ぺ\"]"]

/-- Lines 161-200 of /repo/assets/rules/default/rule.toml. -/
def defaultFile4 : List Str :=
  [c%"pi = [\"\", \"ぴ\"]",
   c%"po = [\"\", \"ぽ\"]",
   c%"pp = [\"p\", \"っ\"]",
   c%"pu = [\"\", \"ぷ\"]",
   c%"pya = [\"\", \"ぴゃ\"]",
   c%"pye = [\"\", \"ぴぇ\"]",
   c%"pyi = [\"\", \"ぴぃ\"]",
   c%"pyo = [\"\", \"ぴょ\"]",
   c%"pyu = [\"\", \"ぴゅ\"]",
   c%"ra = [\"\", \"ら\"]",
   c%"re = [\"\", \"れ\"]",
   c%"ri = [\"\", \"り\"]",
   c%"ro = [\"\", \"ろ\"]",
   c%"rr = [\"r\", \"っ\"]",
   c%"ru = [\"\", \"る\"]",
   c%"rya = [\"\", \"りゃ\"]",
   c%"rye = [\"\", \"りぇ\"]",
   c%"ryi = [\"\", \"りぃ\"]",
   c%"ryo = [\"\", \"りょ\"]",
   c%"ryu = [\"\", \"りゅ\"]",
   c%"sa = [\"\", \"さ\"]",
   c%"se = [\"\", \"せ\"]",
   c%"sha = [\"\", \"しゃ\"]",
   c%"she = [\"\", \"しぇ\"]",
   c%"shi = [\"\", \"し\"]",
   c%"sho = [\"\", \"しょ\"]",
   c%"shu = [\"\", \"しゅ\"]",
   c%"si = [\"\", \"し\"]",
   c%"so = [\"\", \"そ\"]",
   c%"ss = [\"s\", \"っ\"]",
   c%"su = [\"\", \"す\"]",
   c%"sya = [\"\", \"しゃ\"]",
   c%"sye = [\"\", \"しぇ\"]",
   c%"syi = [\"\", \"しぃ\"]",
   c%"syo = [\"\", \"しょ\"]",
   c%"syu = [\"\", \"しゅ\"]",
   c%"ta = [\"\", \"た\"]",
   c%"te = [\"\", \"て\"]",
   c%"tha = [\"\", \"てぁ\"]",
   c%"the = [\"\", \"てぇ\"]"]

/-- Lines 201-240 of /repo/assets/rules/default/rule.toml. -/
def defaultFile5 : List Str :=
  [c%"thi = [\"\", \"てぃ\"]",
   c%"tho = [\"\", \"てょ\"]",
   c%"thu = [\"\", \"てゅ\"]",
   c%"ti = [\"\", \"ち\"]",
   c%"to = [\"\", \"と\"]",
   c%"tsu = [\"\", \"つ\"]",
   c%"tt = [\"t\", \"っ\"]",
   c%"tu = [\"\", \"つ\"]",
   c%"tya = [\"\", \"ちゃ\"]",
   c%"tye = [\"\", \"ちぇ\"]",
   c%"tyi = [\"\", \"ちぃ\"]",
   c%"tyo = [\"\", \"ちょ\"]",
   c%"tyu = [\"\", \"ちゅ\"]",
   c%"u = [\"\", \"う\"]",
   c%"va = [\"\", \"ゔぁ\"]",
   c%"ve = [\"\", \"ゔぇ\"]",
   c%"vi = [\"\", \"ゔぃ\"]",
   c%"vo = [\"\", \"ゔぉ\"]",
   c%"vu = [\"\", \"ゔ\"]",
   c%"vv = [\"v\", \"っ\"]",
   c%"wa = [\"\", \"わ\"]",
   c%"we = [\"\", \"うぇ\"]",
   c%"wi = [\"\", \"うぃ\"]",
   c%"wo = [\"\", \"を\"]",
   c%"wu = [\"\", \"う\"]",
   c%"ww = [\"w\", \"っ\"]",
   c%"xa = [\"\", \"ぁ\"]",
   c%"xe = [\"\", \"ぇ\"]",
   c%"xi = [\"\", \"ぃ\"]",
   c%"xka = [\"\", \"ゕ\"]",
   c%"xke = [\"\", \"ゖ\"]",
   c%"xo = [\"\", \"ぉ\"]",
   c%"xtsu = [\"\", \"っ\"]",
   c%"xtu = [\"\", \"っ\"]",
   c%"xu = [\"\", \"ぅ\"]",
   c%"xwa = [\"\", \"ゎ\"]",
   c%"xwe = [\"\", \"ゑ\"]",
   c%"xwi = [\"\", \"ゐ\"]",
   c%"xx = [\"x\", \"っ\"]",
   c%"xya = [\"\", \"ゃ\"]"]

/-- Lines 241-280 of /repo/assets/rules/default/rule.toml. -/
def defaultFile6 : List Str :=
  [c%"xyo = [\"\", \"ょ\"]",
   c%"xyu = [\"\", \"ゅ\"]",
   c%"ya = [\"\", \"や\"]",
   c%"ye = [\"\", \"いぇ\"]",
   c%"yo = [\"\", \"よ\"]",
   c%"yu = [\"\", \"ゆ\"]",
   c%"yy = [\"y\", \"っ\"]",
   c%"\"z comma\" = [\"\", \"‥\"]",
   c%"\"z period\" = [\"\", \"…\"]",
   c%"\"z slash\" = [\"\", \"・\"]",
   c%"\"z bracketleft\" = [\"\", \"『\"]",
   c%"\"z bracketright\" = [\"\", \"』\"]",
   c%"\"z minus\" = [\"\", \"〜\"]",
   c%"za = [\"\", \"ざ\"]",
   c%"ze = [\"\", \"ぜ\"]",
   c%"zh = [\"\", \"←\"]",
   c%"zi = [\"\", \"じ\"]",
   c%"zj = [\"\", \"↓\"]",
   c%"zk = [\"\", \"↑\"]",
   c%"zl = [\"\", \"→\"]",
   c%"zo = [\"\", \"ぞ\"]",
   c%"zu = [\"\", \"ず\"]",
   c%"zya = [\"\", \"じゃ\"]",
   c%"zye = [\"\", \"じぇ\"]",
   c%"zyi = [\"\", \"じぃ\"]",
   c%"zyo = [\"\", \"じょ\"]",
   c%"zyu = [\"\", \"じゅ\"]",
   c%"zz = [\"z\", \"っ\"]",
   c%"",
   c%"#",
   c%"# command: 各モードのコマンド",
   c%"# 各モードごとにコマンドのマッピングをする。",
   c%"# keyは1つのKeyEvent",
   c%"# 短い前置詞としてC-,A-,M-,G-がそれぞれCtrl,Mod1(Alt)、Meta, Mod5モディファイアとして解釈される。",
   c%"# 長い前置詞として()で括った時に\"control\" | \"meta\" | \"alt\" | \"lshift\" | \"rshift\" | \"shift\" がモディファイアとして解釈される。",
   c%"# 本体は上記conversionと同じKeysym",
   c%"#",
   c%"# valueはコマンドの配列。",
   c%"# コマンドが未整理でlibskkより煩雑なため、メジャーバージョンアップデートで変える可能性がある。",
   c%"#"]

/-- Lines 281-320 of /repo/assets/rules/default/rule.toml. -/
def defaultFile7 : List Str :=
  [c%"# ChangeInputMode(InputMode) - 入力モードを変更する",
   c%"# ChangeCompositionMode(CompositionMode) - 変換モードを変更する。",
   c%"#",
   c%"# ConfirmAs(InputMode) - かな変換のあるInputModeを指定し、漢字変換前のかなをそのモードで入力する.",
   c%"# ForceKanaConvert(InputMode) - 未変換の入力を強制的にかな変換して入力する。 (`n`を`ん`,`ン`に入力する)",
   c%"# ConfirmDirect - 辞書登録モードの時、現在の入力を確定して入力処理を終える。そうでない場合、cskkでは何もせず、入力処理も終えない。",
   c%"#",
   c%"# ClearUnconvertedInputs - かな変換前の入力を全て消す。",
   c%"# ClearKanaConvertedInputs - 漢字変換前の入力を全て消す。",
   c%"# ClearUnconfirmedInputs - 未確定入力を全て消す。",
   c%"# Delete - 一文字消す。消せた場合のみ入力処理を終える。",
   c%"#",
   c%"# ConfirmComposition - 現在の変換候補で確定する。確定できた場合、CompositionModeはDirectに戻る。",
   c%"# TryNextCandidate - 次の変換候補を選択する。候補がないと辞書登録モードに移る。",
   c%"# TryPreviousCandidate - 前の変換候補を選択する。候補がないと変換前モードに戻る。",
   c%"# NextCandidatePointer - 次の変換候補を選択する。候補がないと何もしない。",
   c%"# PreviousCandidatePointer - 前の変換候補を選択する。候補がないと何もしない。",
   c%"# Purge - 現在選択している変換候補を消去する。",
   c%"# Abort - 現在の変換を中止し、直前のモードに戻る。",
   c%"#",
   c%"# TryNextCompletion - 次の補完候補を選択する。候補がない場合モード変更等なく何もしない。",
   c%"# TryPreviousCompletion- 前の補完候補を選択する。候補がない場合モード変更等なく何もしない。",
   c%"#",
   c%"# FinishKeyEvent - コマンドで処理がない場合に明示的にCSKKで入力処理を終える。(IME実装に依るが、アプリケーション等にキーを渡さない)",
   c%"# PassthroughKeyEvent - コマンドで処理があっても明示的に入力処理を終えない。(IME実装に依るが、アプリケーション等にキーを渡す。)",
   c%"",
   c%"# InputMode := (Hiragana|Katakana|HankakuKatakana|Zenkaku|Ascii)",
   c%"# CompositionMode := (Direct|PreComposition|PreCompositionOkurigana|CompositionSelection|Abbreviation|Register|Completion)",
   c%"",
   c%"[command]",
   c%"# Hiraganaモード時のコマンド",
   c%"[direct.hiragana]",
   c%"\"l\" = [\"ForceKanaConvert(Hiragana)\", \"ChangeInputMode(Ascii)\", \"ClearUnconfirmedInputs\"]",
   c%"\"L\" = [\"ForceKanaConvert(Hiragana)\", \"ChangeInputMode(Zenkaku)\", \"ClearUnconfirmedInputs\"]",
   c%"\"C-q\" = [\"ForceKanaConvert(Hiragana)\", \"ChangeInputMode(HankakuKatakana)\", \"ClearUnconfirmedInputs\"]",
   c%"\"q\" = [\"ForceKanaConvert(Hiragana)\", \"ChangeInputMode(Katakana)\", \"ClearUnconfirmedInputs\"]",
   c%"\"Q\" = [\"ChangeCompositionMode(PreComposition)\"]",
   c%"\"C-j\" = [\"FinishKeyEvent\"]",
   c%"\"C-g\" = [\"Abort\"]",
   c%"\"C-G\" = [\"Abort\"]"]

/-- Lines 321-360 of /repo/assets/rules/default/rule.toml. -/
def defaultFile8 : List Str :=
  [c%"\"Return\" = [\"ConfirmDirect\"]",
   c%"\"C-m\" = [\"ConfirmDirect\"]",
   c%"\"BackSpace\" = [\"Delete\"]",
   c%"\"C-h\" = [\"Delete\"]",
   c%"\"C-H\" = [\"Delete\"]",
   c%"\"slash\" = [\"ChangeCompositionMode(Abbreviation)\"]",
   c%"# Katakanaモード時のコマンド",
   c%"[direct.katakana]",
   c%"\"l\" = [\"ForceKanaConvert(Katakana)\", \"ChangeInputMode(Ascii)\", \"ClearUnconfirmedInputs\"]",
   c%"\"L\" = [\"ForceKanaConvert(Katakana)\", \"ChangeInputMode(Zenkaku)\", \"ClearUnconfirmedInputs\"]",
   c%"\"C-q\" = [\"ForceKanaConvert(Hiragana)\", \"ChangeInputMode(HankakuKatakana)\", \"ClearUnconfirmedInputs\"]",
   c%"\"q\" = [\"ForceKanaConvert(Katakana)\", \"ChangeInputMode(Hiragana)\", \"ClearUnconfirmedInputs\"]",
   c%"\"Q\" = [\"ChangeCompositionMode(PreComposition)\"]",
   c%"\"C-j\" = [\"FinishKeyEvent\"]",
   c%"\"C-g\" = [\"Abort\"]",
   c%"\"C-G\" = [\"Abort\"]",
   c%"\"Return\" = [\"ConfirmDirect\"]",
   c%"\"C-m\" = [\"ConfirmDirect\"]",
   c%"\"BackSpace\" = [\"Delete\"]",
   c%"\"C-h\" = [\"Delete\"]",
   c%"\"C-H\" = [\"Delete\"]",
   c%"\"slash\" = [\"ChangeCompositionMode(Abbreviation)\"]",
   c%"# 半角カナ(JIS X 0201 カナ)モード時のコマンド",
   c%"[direct.hankakukatakana]",
   c%"\"l\" = [\"ForceKanaConvert(HankakuKatakana)\", \"ChangeInputMode(Ascii)\", \"ClearUnconfirmedInputs\"]",
   c%"\"L\" = [\"ForceKanaConvert(HankakuKatakana)\", \"ChangeInputMode(Zenkaku)\", \"ClearUnconfirmedInputs\"]",
   c%"\"C-q\" = [\"ForceKanaConvert(HankakuKatakana)\", \"ChangeInputMode(Katakana)\", \"ClearUnconfirmedInputs\"]",
   c%"\"q\" = [\"ForceKanaConvert(HankakuKatakana)\", \"ChangeInputMode(Hiragana)\", \"ClearUnconfirmedInputs\"]",
   c%"\"Q\" = [\"ChangeCompositionMode(PreComposition)\"]",
   c%"\"C-j\" = [\"FinishKeyEvent\"]",
   c%"\"C-g\" = [\"Abort\"]",
   c%"\"C-G\" = [\"Abort\"]",
   c%"\"Return\" = [\"ConfirmDirect\"]",
   c%"\"C-m\" = [\"ConfirmDirect\"]",
   c%"\"BackSpace\" = [\"Delete\"]",
   c%"\"C-h\" = [\"Delete\"]",
   c%"\"C-H\" = [\"Delete\"]",
   c%"\"slash\" = [\"ChangeCompositionMode(Abbreviation)\"]",
   c%"# 全角英数モード時のコマンド",
   c%"[direct.zenkaku]"]

/-- Lines 361-400 of /repo/assets/rules/default/rule.toml. -/
def defaultFile9 : List Str :=
  [c%"\"C-g\" = [\"Abort\"]",
   c%"\"C-j\" = [\"ChangeInputMode(Hiragana)\"]",
   c%"\"Return\" = [\"ConfirmDirect\"]",
   c%"\"C-m\" = [\"ConfirmDirect\"]",
   c%"\"BackSpace\" = [\"Delete\"]",
   c%"\"C-h\" = [\"Delete\"]",
   c%"\"C-H\" = [\"Delete\"]",
   c%"# asciiモードという名称はddskk由来。いわゆるlatinモードでのコマンド",
   c%"[direct.ascii]",
   c%"\"C-g\" = [\"Abort\"]",
   c%"\"C-j\" = [\"ChangeInputMode(Hiragana)\"]",
   c%"\"Return\" = [\"ConfirmDirect\"]",
   c%"\"C-m\" = [\"ConfirmDirect\"]",
   c%"\"BackSpace\" = [\"Delete\"]",
   c%"\"C-h\" = [\"Delete\"]",
   c%"\"C-H\" = [\"Delete\"]",
   c%"",
   c%"[pre_composition.hiragana]",
   c%"\"space\" = [\"TryNextCandidate\"]",
   c%"\"q\" = [\"ForceKanaConvert(Katakana)\", \"ConfirmAs(Katakana)\", \"ChangeCompositionMode(Direct)\"]",
   c%"\"Q\" = [\"FinishKeyEvent\"]",
   c%"\"C-q\" = [\"ConfirmAs(HankakuKatakana)\", \"ChangeCompositionMode(Direct)\"]",
   c%"\"C-g\" = [\"ClearUnconfirmedInputs\", \"Abort\"]",
   c%"\"C-j\" = [\"ForceKanaConvert(Hiragana)\", \"ConfirmAs(Hiragana)\", \"ChangeCompositionMode(Direct)\"]",
   c%"\"BackSpace\" = [\"Delete\"]",
   c%"\"C-h\" = [\"Delete\"]",
   c%"\"Tab\" = [\"TryNextCompletion\"]",
   c%"[pre_composition.katakana]",
   c%"\"space\" = [\"TryNextCandidate\"]",
   c%"\"q\" = [\"ForceKanaConvert(Hiragana)\", \"ConfirmAs(Hiragana)\", \"ChangeCompositionMode(Direct)\"]",
   c%"\"Q\" = [\"FinishKeyEvent\"]",
   c%"\"C-q\" = [\"ConfirmAs(HankakuKatakana)\", \"ChangeCompositionMode(Direct)\"]",
   c%"\"C-g\" = [\"ClearUnconfirmedInputs\", \"Abort\"]",
   c%"\"C-j\" = [\"ForceKanaConvert(Katakana)\", \"ConfirmAs(Katakana)\", \"ChangeCompositionMode(Direct)\"]",
   c%"\"BackSpace\" = [\"Delete\"]",
   c%"\"C-h\" = [\"Delete\"]",
   c%"\"Tab\" = [\"TryNextCompletion\"]",
   c%"[pre_composition.hankakukatakana]",
   c%"\"space\" = [\"TryNextCandidate\"]",
   c%"\"q\" = [\"ForceKanaConvert(Hiragana)\", \"ConfirmAs(Hiragana)\", \"ChangeCompositionMode(Direct)\"]"]

/-- Lines 401-440 of /repo/assets/rules/default/rule.toml. -/
def defaultFile10 : List Str :=
  [c%"\"Q\" = [\"FinishKeyEvent\"]",
   c%"\"C-q\" = [\"ConfirmAs(Katakana)\", \"ChangeCompositionMode(Direct)\"]",
   c%"\"C-g\" = [\"ClearUnconfirmedInputs\", \"Abort\"]",
   c%"\"C-j\" = [\"ForceKanaConvert(HankakuKatakana)\", \"ConfirmAs(HankakuKatakana)\", \"ChangeCompositionMode(Direct)\"]",
   c%"\"BackSpace\" = [\"Delete\"]",
   c%"\"C-h\" = [\"Delete\"]",
   c%"\"Tab\" = [\"TryNextCompletion\"]",
   c%"",
   c%"[pre_compisition_okurigana.hiragana]",
   c%"\"space\" = [\"TryNextCandidate\"]",
   c%"\"q\" = [\"ForceKanaConvert(Katakana)\", \"ConfirmAs(Katakana)\", \"ChangeCompositionMode(Direct)\"]",
   c%"\"Q\" = [\"FinishKeyEvent\"]",
   c%"\"C-q\" = [\"ConfirmAs(HankakuKatakana)\", \"ChangeCompositionMode(Direct)\"]",
   c%"\"C-g\" = [\"ClearUnconfirmedInputs\", \"Abort\"]",
   c%"\"C-j\" = [\"ForceKanaConvert(Hiragana)\", \"ConfirmAs(Hiragana)\", \"ChangeCompositionMode(Direct)\"]",
   c%"\"BackSpace\" = [\"Delete\"]",
   c%"\"C-h\" = [\"Delete\"]",
   c%"[pre_compisition_okurigana.katakana]",
   c%"\"space\" = [\"TryNextCandidate\"]",
   c%"\"q\" = [\"ForceKanaConvert(Hiragana)\", \"ConfirmAs(Hiragana)\", \"ChangeCompositionMode(Direct)\"]",
   c%"\"Q\" = [\"FinishKeyEvent\"]",
   c%"\"C-q\" = [\"ConfirmAs(HankakuKatakana)\", \"ChangeCompositionMode(Direct)\"]",
   c%"\"C-g\" = [\"ClearUnconfirmedInputs\", \"Abort\"]",
   c%"\"C-j\" = [\"ForceKanaConvert(Katakana)\", \"ConfirmAs(Katakana)\", \"ChangeCompositionMode(Direct)\"]",
   c%"\"BackSpace\" = [\"Delete\"]",
   c%"\"C-h\" = [\"Delete\"]",
   c%"[pre_compisition_okurigana.hankakukatakana]",
   c%"\"space\" = [\"TryNextCandidate\"]",
   c%"\"q\" = [\"ForceKanaConvert(Hiragana)\", \"ConfirmAs(Hiragana)\", \"ChangeCompositionMode(Direct)\"]",
   c%"\"Q\" = [\"FinishKeyEvent\"]",
   c%"\"C-q\" = [\"ConfirmAs(Katakana)\", \"ChangeCompositionMode(Direct)\"]",
   c%"\"C-g\" = [\"ClearUnconfirmedInputs\", \"Abort\"]",
   c%"\"C-j\" = [\"ForceKanaConvert(HankakuKatakana)\", \"ConfirmAs(HankakuKatakana)\", \"ChangeCompositionMode(Direct)\"]",
   c%"\"BackSpace\" = [\"Delete\"]",
   c%"\"C-h\" = [\"Delete\"]",
   c%"",
   c%"[abbreviation.hiragana]",
   c%"\"space\" = [\"TryNextCandidate\"]",
   c%"\"BackSpace\" = [\"Delete\"]",
   c%"\"C-h\" = [\"Delete\"]"]

/-- Lines 441-480 of /repo/assets/rules/default/rule.toml. -/
def defaultFile11 : List Str :=
  [c%"\"C-j\" = [\"ConfirmAs(Ascii)\", \"ChangeCompositionMode(Direct)\"]",
   c%"\"C-q\" = [\"ConfirmAs(Zenkaku)\", \"ChangeCompositionMode(Direct)\"]",
   c%"\"Tab\" = [\"TryNextCompletion\"]",
   c%"[abbreviation.katakana]",
   c%"\"space\" = [\"TryNextCandidate\"]",
   c%"\"BackSpace\" = [\"Delete\"]",
   c%"\"C-h\" = [\"Delete\"]",
   c%"\"C-j\" = [\"ConfirmAs(Ascii)\", \"ChangeCompositionMode(Direct)\"]",
   c%"\"C-q\" = [\"ConfirmAs(Zenkaku)\", \"ChangeCompositionMode(Direct)\"]",
   c%"\"Tab\" = [\"TryNextCompletion\"]",
   c%"[abbreviation.hankakukatakana]",
   c%"\"space\" = [\"TryNextCandidate\"]",
   c%"\"BackSpace\" = [\"Delete\"]",
   c%"\"C-h\" = [\"Delete\"]",
   c%"\"C-j\" = [\"ConfirmAs(Ascii)\", \"ChangeCompositionMode(Direct)\"]",
   c%"\"C-q\" = [\"ConfirmAs(Zenkaku)\", \"ChangeCompositionMode(Direct)\"]",
   c%"\"Tab\" = [\"TryNextCompletion\"]",
   c%"",
   c%"[composition_selection.hiragana]",
   c%"\"Return\" = [\"ConfirmComposition\"]",
   c%"\"C-j\" = [\"ConfirmComposition\"]",
   c%"\"Escape\" = [\"Abort\"]",
   c%"\"C-g\" = [\"Abort\"]",
   c%"\"X\" = [\"Purge\", \"ChangeCompositionMode(Direct)\"]",
   c%"\"space\" = [\"TryNextCandidate\"]",
   c%"\"x\" = [\"TryPreviousCandidate\"]",
   c%"\"BackSpace\" = [\"ConfirmComposition\", \"Delete\"]",
   c%"\"C-h\" = [\"ConfirmComposition\", \"Delete\"]",
   c%"\"q\" = [\"ConfirmComposition\", \"ChangeInputMode(Katakana)\"]",
   c%"\"C-q\" = [\"ConfirmComposition\", \"ChangeInputMode(HankakuKatakana)\"]",
   c%"[composition_selection.katakana]",
   c%"\"Return\" = [\"ConfirmComposition\", \"ChangeCompositionMode(Direct)\"]",
   c%"\"C-j\" = [\"ConfirmComposition\", \"ChangeCompositionMode(Direct)\"]",
   c%"\"Escape\" = [\"Abort\"]",
   c%"\"C-g\" = [\"Abort\"]",
   c%"\"X\" = [\"Purge\", \"ChangeCompositionMode(Direct)\"]",
   c%"\"space\" = [\"TryNextCandidate\"]",
   c%"\"x\" = [\"TryPreviousCandidate\"]",
   c%"\"BackSpace\" = [\"ConfirmComposition\", \"Delete\"]",
   c%"\"C-h\" = [\"ConfirmComposition\", \"Delete\"]"]

/-- Lines 481-520 of /repo/assets/rules/default/rule.toml. -/
def defaultFile12 : List Str :=
  [c%"\"q\" = [\"ConfirmComposition\", \"ChangeInputMode(Hiragana)\"]",
   c%"\"C-q\" = [\"ConfirmComposition\", \"ChangeInputMode(HankakuKatakana)\"]",
   c%"[composition_selection.hankakukatakana]",
   c%"\"Return\" = [\"ConfirmComposition\", \"ChangeCompositionMode(Direct)\"]",
   c%"\"C-j\" = [\"ConfirmComposition\", \"ChangeCompositionMode(Direct)\"]",
   c%"\"Escape\" = [\"Abort\"]",
   c%"\"C-g\" = [\"Abort\"]",
   c%"\"X\" = [\"Purge\", \"ChangeCompositionMode(Direct)\"]",
   c%"\"space\" = [\"TryNextCandidate\"]",
   c%"\"x\" = [\"TryPreviousCandidate\"]",
   c%"\"BackSpace\" = [\"ConfirmComposition\", \"Delete\"]",
   c%"\"C-h\" = [\"ConfirmComposition\", \"Delete\"]",
   c%"\"q\" = [\"ConfirmComposition\", \"ChangeInputMode(Hiragana)\"]",
   c%"\"C-q\" = [\"ConfirmComposition\", \"ChangeInputMode(Katakana)\"]",
   c%"",
   c%"[completion.hiragana]",
   c%"\"Return\" = [\"ConfirmComposition\"]",
   c%"\"C-j\" = [\"ConfirmComposition\"]",
   c%"\"Tab\" = [\"NextCandidatePointer\"]",
   c%"\"period\" = [\"NextCandidatePointer\"]",
   c%"\"(shift Tab)\" = [\"PreviousCandidatePointer\"]",
   c%"\"comma\" = [\"PreviousCandidatePointer\"]",
   c%"\"C-g\" = [\"Abort\"]",
   c%"\"Escape\" = [\"Abort\"]",
   c%"\"BackSpace\" = [\"ConfirmComposition\", \"Delete\"]",
   c%"[completion.katakana]",
   c%"\"Return\" = [\"ConfirmComposition\"]",
   c%"\"C-j\" = [\"ConfirmComposition\"]",
   c%"\"Tab\" = [\"NextCandidatePointer\"]",
   c%"\"period\" = [\"NextCandidatePointer\"]",
   c%"\"(shift Tab)\" = [\"PreviousCandidatePointer\"]",
   c%"\"comma\" = [\"PreviousCandidatePointer\"]",
   c%"\"C-g\" = [\"Abort\"]",
   c%"\"Escape\" = [\"Abort\"]",
   c%"\"BackSpace\" = [\"ConfirmComposition\", \"Delete\"]",
   c%"[completion.hankakukatakana]",
   c%"\"Return\" = [\"ConfirmComposition\"]",
   c%"\"C-j\" = [\"ConfirmComposition\"]",
   c%"\"Tab\" = [\"NextCandidatePointer\"]",
   c%"\"period\" = [\"NextCandidatePointer\"]"]

/-- Lines 521-525 of /repo/assets/rules/default/rule.toml. -/
def defaultFile13 : List Str :=
  [c%"\"(shift Tab)\" = [\"PreviousCandidatePointer\"]",
   c%"\"comma\" = [\"PreviousCandidatePointer\"]",
   c%"\"C-g\" = [\"Abort\"]",
   c%"\"Escape\" = [\"Abort\"]",
   c%"\"BackSpace\" = [\"ConfirmComposition\", \"Delete\"]"]

/-- The lines of /repo/assets/rules/default/rule.toml. -/
def defaultFileLines : List (List Str) :=
  [defaultFile0, defaultFile1, defaultFile2, defaultFile3, defaultFile4, defaultFile5, defaultFile6, defaultFile7, defaultFile8, defaultFile9, defaultFile10, defaultFile11, defaultFile12, defaultFile13]

/-- The text of /repo/assets/rules/default/rule.toml. -/
def defaultFile : Str := joinLines defaultFileLines.flatten

/-- Lines 1-40 of /repo/assets/rules/azik/rule.toml. -/
def azikFile0 : List Str :=
  [c%"[metadata]",
   c%"name = \"azik\"",
   c%"description = \"AZIK typing rule\"",
   c%"",
   c%"#",
   c%"# 拡張ローマ字入力 ＡＺＩＫ 総合解説書に基づく http://hp.vector.co.jp/authors/VA002116/azik/azikinfo.htm#itiran",
   c%"# ただしl前置拗音をxx前置拗音に置き換え",
   c%"#",
   c%"# libskkではピリオド関連や連続子音字による'っ'など仕様由来不明の拡張がさらにほどこされているため、libskkのazikルールとは異なる。",
   c%"#",
   c%"",
   c%"[conversion]",
   c%"colon = [\"\", \"ー\"]",
   c%"semicolon = [\"\", \"っ\"]",
   c%"question = [\"\", \"？\"]",
   c%"bracketleft = [\"\", \"「\"]",
   c%"bracketright = [\"\", \"」\"]",
   c%"minus = [\"\", \"ー\"]",
   c%"q = [\"\", \"ん\"]",
   c%"# 清音",
   c%"\"a\" = [\"\", \"あ\"]",
   c%"\"i\" = [\"\", \"い\"]",
   c%"\"u\" = [\"\", \"う\"]",
   c%"\"e\" = [\"\", \"え\"]",
   c%"\"o\" = [\"\", \"お\"]",
   c%"\"ka\" = [\"\", \"か\"]",
   c%"\"ki\" = [\"\", \"き\"]",
   c%"\"ku\" = [\"\", \"く\"]",
   c%"\"ke\" = [\"\", \"け\"]",
   c%"\"ko\" = [\"\", \"こ\"]",
   c%"\"sa\" = [\"\", \"さ\"]",
   c%"\"si\" = [\"\", \"し\"]",
   c%"\"su\" = [\"\", \"す\"]",
   c%"\"se\" = [\"\", \"せ\"]",
   c%"\"so\" = [\"\", \"そ\"]",
   c%"\"ta\" = [\"\", \"た\"]",
   c%"\"ti\" = [\"\", \"ち\"]",
   c%"\"tu\" = [\"\", \"つ\"]",
   c%"\"te\" = [\"\", \"て\"]",
   c%"\"to\" = [\"\", \"と\"]"]

/-- Lines 41-80 of /repo/assets/rules/azik/rule.toml. -/
def azikFile1 : List Str :=
  [c%"\"na\" = [\"\", \"な\"]",
   c%"\"ni\" = [\"\", \"に\"]",
   c%"\"nu\" = [\"\", \"ぬ\"]",
   c%"\"ne\" = [\"\", \"ね\"]",
   c%"\"no\" = [\"\", \"の\"]",
   c%"\"ha\" = [\"\", \"は\"]",
   c%"\"hi\" = [\"\", \"ひ\"]",
   c%"\"hu\" = [\"\", \"ふ\"]",
   c%"\"he\" = [\"\", \"へ\"]",
   c%"\"ho\" = [\"\", \"ほ\"]",
   c%"\"fu\" = [\"\", \"ふ\"]",
   c%"\"ma\" = [\"\", \"ま\"]",
   c%"\"mi\" = [\"\", \"み\"]",
   c%"\"m u\" = [\"\", \"む\"]",
   c%"\"me\" = [\"\", \"め\"]",
   c%"\"mo\" = [\"\", \"も\"]",
   c%"\"ya\" = [\"\", \"や\"]",
   c%"\"yu\" = [\"\", \"ゆ\"]",
   c%"\"yo\" = [\"\", \"よ\"]",
   c%"\"ra\" = [\"\", \"ら\"]",
   c%"\"ri\" = [\"\", \"り\"]",
   c%"\"ru\" = [\"\", \"る\"]",
   c%"\"re\" = [\"\", \"れ\"]",
   c%"\"ro\" = [\"\", \"ろ\"]",
   c%"\"wa\" = [\"\", \"わ\"]",
   c%"\"wo\" = [\"\", \"を\"]",
   c%"# 撥音拡張",
   c%"\"kz\" = [\"\", \"かん\"]",
   c%"\"kn\" = [\"\", \"かん\"]",
   c%"\"kk\" = [\"\", \"きん\"]",
   c%"\"kj\" = [\"\", \"くん\"]",
   c%"\"kd\" = [\"\", \"けん\"]",
   c%"\"kl\" = [\"\", \"こん\"]",
   c%"\"sz\" = [\"\", \"さん\"]",
   c%"\"sn\" = [\"\", \"さん\"]",
   c%"\"sk\" = [\"\", \"しん\"]",
   c%"\"sj\" = [\"\", \"すん\"]",
   c%"\"sd\" = [\"\", \"せん\"]",
   c%"\"sl\" = [\"\", \"そん\"]",
   c%"\"tz\" = [\"\", \"たん\"]"]

/-- Lines 81-120 of /repo/assets/rules/azik/rule.toml. -/
def azikFile2 : List Str :=
  [c%"\"tn\" = [\"\", \"たん\"]",
   c%"\"tk\" = [\"\", \"ちん\"]",
   c%"\"tj\" = [\"\", \"つん\"]",
   c%"\"td\" = [\"\", \"てん\"]",
   c%"\"tl\" = [\"\", \"とん\"]",
   c%"\"nz\" = [\"\", \"なん\"]",
   c%"\"nn\" = [\"\", \"ん\"]",
   c%"\"nk\" = [\"\", \"にん\"]",
   c%"\"nj\" = [\"\", \"ぬん\"]",
   c%"\"nd\" = [\"\", \"ねん\"]",
   c%"\"nl\" = [\"\", \"のん\"]",
   c%"\"hz\" = [\"\", \"はん\"]",
   c%"\"hn\" = [\"\", \"はん\"]",
   c%"\"hk\" = [\"\", \"ひん\"]",
   c%"\"hj\" = [\"\", \"ふん\"]",
   c%"\"hd\" = [\"\", \"へん\"]",
   c%"\"hl\" = [\"\", \"ほん\"]",
   c%"\"fz\" = [\"\", \"ふぁん\"]",
   c%"\"fn\" = [\"\", \"ふぁん\"]",
   c%"\"fk\" = [\"\", \"ふぃん\"]",
   c%"\"fj\" = [\"\", \"ふん\"]",
   c%"\"fd\" = [\"\", \"ふぇん\"]",
   c%"\"fl\" = [\"\", \"ふぉん\"]",
   c%"\"mz\" = [\"\", \"まん\"]",
   c%"\"mk\" = [\"\", \"みん\"]",
   c%"\"mj\" = [\"\", \"むん\"]",
   c%"\"md\" = [\"\", \"めん\"]",
   c%"\"ml\" = [\"\", \"もん\"]",
   c%"\"yz\" = [\"\", \"やん\"]",
   c%"\"yn\" = [\"\", \"やん\"]",
   c%"\"yj\" = [\"\", \"ゆん\"]",
   c%"\"yl\" = [\"\", \"よん\"]",
   c%"\"rz\" = [\"\", \"らん\"]",
   c%"\"rn\" = [\"\", \"らん\"]",
   c%"\"rk\" = [\"\", \"りん\"]",
   c%"\"rj\" = [\"\", \"るん\"]",
   c%"\"rd\" = [\"\", \"れん\"]",
   c%"\"rl\" = [\"\", \"ろん\"]",
   c%"\"wz\" = [\"\", \"わん\"]",
   c%"\"wn\" = [\"\", \"わん\"]"]

/-- Lines 121-160 of /repo/assets/rules/azik/rule.toml. -/
def azikFile3 : List Str :=
  [c%"\"wk\" = [\"\", \"うぃん\"]",
   c%"\"wd\" = [\"\", \"うぇん\"]",
   c%"\"wl\" = [\"\", \"うぉん\"]",
   c%"# 二重母音拡張",
   c%"\"kq\" = [\"\", \"かい\"]",
   c%"\"kh\" = [\"\", \"くう\"]",
   c%"\"kw\" = [\"\", \"けい\"]",
   c%"\"kp\" = [\"\", \"こう\"]",
   c%"\"sq\" = [\"\", \"さい\"]",
   c%"\"sh\" = [\"\", \"すう\"]",
   c%"\"sw\" = [\"\", \"せい\"]",
   c%"\"sp\" = [\"\", \"そう\"]",
   c%"\"tq\" = [\"\", \"たい\"]",
   c%"\"th\" = [\"\", \"つう\"]",
   c%"\"tw\" = [\"\", \"てい\"]",
   c%"\"tp\" = [\"\", \"とう\"]",
   c%"\"nq\" = [\"\", \"ない\"]",
   c%"\"nh\" = [\"\", \"ぬう\"]",
   c%"\"nw\" = [\"\", \"ねい\"]",
   c%"\"np\" = [\"\", \"のう\"]",
   c%"\"hq\" = [\"\", \"はい\"]",
   c%"\"hh\" = [\"\", \"ふう\"]",
   c%"\"hw\" = [\"\", \"へい\"]",
   c%"\"hp\" = [\"\", \"ほう\"]",
   c%"\"fq\" = [\"\", \"ふぁい\"]",
   c%"\"fh\" = [\"\", \"ふう\"]",
   c%"\"fw\" = [\"\", \"ふぇい\"]",
   c%"\"fp\" = [\"\", \"ふぉー\"]",
   c%"\"mq\" = [\"\", \"まい\"]",
   c%"\"mh\" = [\"\", \"むう\"]",
   c%"\"mw\" = [\"\", \"めい\"]",
   c%"\"mp\" = [\"\", \"もう\"]",
   c%"\"yq\" = [\"\", \"やい\"]",
   c%"\"yh\" = [\"\", \"ゆう\"]",
   c%"\"yp\" = [\"\", \"よう\"]",
   c%"\"rq\" = [\"\", \"らい\"]",
   c%"\"rh\" = [\"\", \"るう\"]",
   c%"\"rw\" = [\"\", \"れい\"]",
   c%"\"rp\" = [\"\", \"ろう\"]",
   c%"\"wq\" = [\"\", \"わい\"]"]

/-- Lines 161-200 of /repo/assets/rules/azik/rule.toml. -/
def azikFile4 : List Str :=
  [c%"\"wp\" = [\"\", \"うぉー\"]",
   c%"# 濁音、半濁音",
   c%"\"ga\" = [\"\", \"が\"]",
   c%"\"gi\" = [\"\", \"ぎ\"]",
   c%"\"gu\" = [\"\", \"ぐ\"]",
   c%"\"ge\" = [\"\", \"げ\"]",
   c%"\"go\" = [\"\", \"ご\"]",
   c%"\"gz\" = [\"\", \"がん\"]",
   c%"\"gn\" = [\"\", \"がん\"]",
   c%"\"gk\" = [\"\", \"ぎん\"]",
   c%"\"gj\" = [\"\", \"ぐん\"]",
   c%"\"gd\" = [\"\", \"げん\"]",
   c%"\"gl\" = [\"\", \"ごん\"]",
   c%"\"gq\" = [\"\", \"がい\"]",
   c%"\"gh\" = [\"\", \"ぐう\"]",
   c%"\"gw\" = [\"\", \"げい\"]",
   c%"\"gp\" = [\"\", \"ごう\"]",
   c%"\"za\" = [\"\", \"ざ\"]",
   c%"\"zi\" = [\"\", \"じ\"]",
   c%"\"zu\" = [\"\", \"ず\"]",
   c%"\"ze\" = [\"\", \"ぜ\"]",
   c%"\"zo\" = [\"\", \"ぞ\"]",
   c%"\"zz\" = [\"\", \"ざん\"]",
   c%"\"zn\" = [\"\", \"ざん\"]",
   c%"\"zk\" = [\"\", \"じん\"]",
   c%"\"zj\" = [\"\", \"ずん\"]",
   c%"\"zd\" = [\"\", \"ぜん\"]",
   c%"\"zl\" = [\"\", \"ぞん\"]",
   c%"\"zq\" = [\"\", \"ざい\"]",
   c%"\"zh\" = [\"\", \"ずう\"]",
   c%"\"zw\" = [\"\", \"ぜい\"]",
   c%"\"zp\" = [\"\", \"ぞう\"]",
   c%"\"da\" = [\"\", \"だ\"]",
   c%"\"di\" = [\"\", \"ぢ\"]",
   c%"\"du\" = [\"\", \"づ\"]",
   c%"\"de\" = [\"\", \"で\"]",
   c%"\"do\" = [\"\", \"ど\"]",
   c%"\"dz\" = [\"\", \"だん\"]",
   c%"\"dn\" = [\"\", \"だん\"]",
   c%"\"dk\" = [\"\", \"ぢん\"]"]

/-- Lines 201-240 of /repo/assets/rules/azik/rule.toml. -/
def azikFile5 : List Str :=
  [c%"\"dj\" = [\"\", \"づん\"]",
   c%"\"dd\" = [\"\", \"でん\"]",
   c%"\"dl\" = [\"\", \"どん\"]",
   c%"\"dq\" = [\"\", \"だい\"]",
   c%"\"dh\" = [\"\", \"づう\"]",
   c%"\"dw\" = [\"\", \"でい\"]",
   c%"\"dp\" = [\"\", \"どう\"]",
   c%"\"ba\" = [\"\", \"ば\"]",
   c%"\"bi\" = [\"\", \"び\"]",
   c%"\"bu\" = [\"\", \"ぶ\"]",
   c%"\"be\" = [\"\", \"べ\"]",
   c%"\"bo\" = [\"\", \"ぼ\"]",
   c%"\"bz\" = [\"\", \"ばん\"]",
   c%"\"bn\" = [\"\", \"ばん\"]",
   c%"\"bk\" = [\"\", \"びん\"]",
   c%"\"bj\" = [\"\", \"ぶん\"]",
   c%"\"bd\" = [\"\", \"べん\"]",
   c%"\"bl\" = [\"\", \"ぼん\"]",
   c%"\"bq\" = [\"\", \"ばい\"]",
   c%"\"bh\" = [\"\", \"ぶう\"]",
   c%"\"bw\" = [\"\", \"べい\"]",
   c%"\"bp\" = [\"\", \"ぼう\"]",
   c%"\"pa\" = [\"\", \"ぱ\"]",
   c%"\"pi\" = [\"\", \"ぴ\"]",
   c%"\"pu\" = [\"\", \"ぷ\"]",
   c%"\"pe\" = [\"\", \"ぺ\"]",
   c%"\"po\" = [\"\", \"ぽ\"]",
   c%"\"pz\" = [\"\", \"ぱん\"]",
   c%"\"pn\" = [\"\", \"ぱん\"]",
   c%"\"pk\" = [\"\", \"ぴん\"]",
   c%"\"pj\" = [\"\", \"ぷん\"]",
   c%"\"pd\" = [\"\", \"ぺん\"]",
   c%"\"pl\" = [\"\", \"ぽん\"]",
   c%"\"pq\" = [\"\", \"ぱい\"]",
   c%"\"ph\" = [\"\", \"ぷう\"]",
   c%"\"pw\" = [\"\", \"ぺい\"]",
   c%"\"pp\" = [\"\", \"ぽう\"]",
   c%"# 拗音",
   c%"\"kya\" = [\"\", \"きゃ\"]",
   c%"\"kyu\" = [\"\", \"きゅ\"]"]

/-- Lines 241-280 of /repo/assets/rules/azik/rule.toml. -/
def azikFile6 : List Str :=
  [c%"\"kye\" = [\"\", \"きぇ\"]",
   c%"\"kyo\" = [\"\", \"きょ\"]",
   c%"\"kyz\" = [\"\", \"きゃん\"]",
   c%"\"kyn\" = [\"\", \"きゃん\"]",
   c%"\"kyj\" = [\"\", \"きゅん\"]",
   c%"\"kyd\" = [\"\", \"きぇん\"]",
   c%"\"kyl\" = [\"\", \"きょん\"]",
   c%"\"kyq\" = [\"\", \"きゃい\"]",
   c%"\"kyh\" = [\"\", \"きゅう\"]",
   c%"\"kyw\" = [\"\", \"きぇい\"]",
   c%"\"kyp\" = [\"\", \"きょう\"]",
   c%"\"kga\" = [\"\", \"きゃ\"]",
   c%"\"kgu\" = [\"\", \"きゅ\"]",
   c%"\"kge\" = [\"\", \"きぇ\"]",
   c%"\"kgo\" = [\"\", \"きょ\"]",
   c%"\"kgz\" = [\"\", \"きゃん\"]",
   c%"\"kgn\" = [\"\", \"きゃん\"]",
   c%"\"kgj\" = [\"\", \"きゅん\"]",
   c%"\"kgd\" = [\"\", \"きぇん\"]",
   c%"\"kgl\" = [\"\", \"きょん\"]",
   c%"\"kgq\" = [\"\", \"きゃい\"]",
   c%"\"kgh\" = [\"\", \"きゅう\"]",
   c%"\"kgw\" = [\"\", \"きぇい\"]",
   c%"\"kgp\" = [\"\", \"きょう\"]",
   c%"\"sya\" = [\"\", \"しゃ\"]",
   c%"\"syu\" = [\"\", \"しゅ\"]",
   c%"\"sye\" = [\"\", \"しぇ\"]",
   c%"\"syo\" = [\"\", \"しょ\"]",
   c%"\"syz\" = [\"\", \"しゃん\"]",
   c%"\"syn\" = [\"\", \"しゃん\"]",
   c%"\"syj\" = [\"\", \"しゅん\"]",
   c%"\"syd\" = [\"\", \"しぇん\"]",
   c%"\"syl\" = [\"\", \"しょん\"]",
   c%"\"syq\" = [\"\", \"しゃい\"]",
   c%"\"syh\" = [\"\", \"しゅう\"]",
   c%"\"syw\" = [\"\", \"しぇい\"]",
   c%"\"syp\" = [\"\", \"しょう\"]",
   c%"\"xa\" = [\"\", \"しゃ\"]",
   c%"\"xu\" = [\"\", \"しゅ\"]",
   c%"\"xe\" = [\"\", \"しぇ\"]"]

/-- Lines 281-320 of /repo/assets/rules/azik/rule.toml. -/
def azikFile7 : List Str :=
  [c%"\"xo\" = [\"\", \"しょ\"]",
   c%"\"xz\" = [\"\", \"しゃん\"]",
   c%"\"xn\" = [\"\", \"しゃん\"]",
   c%"\"xj\" = [\"\", \"しゅん\"]",
   c%"\"xd\" = [\"\", \"しぇん\"]",
   c%"\"xl\" = [\"\", \"しょん\"]",
   c%"\"xq\" = [\"\", \"しゃい\"]",
   c%"\"xh\" = [\"\", \"しゅう\"]",
   c%"\"xw\" = [\"\", \"しぇい\"]",
   c%"\"xp\" = [\"\", \"しょう\"]",
   c%"\"tya\" = [\"\", \"ちゃ\"]",
   c%"\"tyu\" = [\"\", \"ちゅ\"]",
   c%"\"tye\" = [\"\", \"ちぇ\"]",
   c%"\"tyo\" = [\"\", \"ちょ\"]",
   c%"\"tyz\" = [\"\", \"ちゃん\"]",
   c%"\"tyn\" = [\"\", \"ちゃん\"]",
   c%"\"tyj\" = [\"\", \"ちゅん\"]",
   c%"\"tyd\" = [\"\", \"ちぇん\"]",
   c%"\"tyl\" = [\"\", \"ちょん\"]",
   c%"\"tyq\" = [\"\", \"ちゃい\"]",
   c%"\"tyh\" = [\"\", \"ちゅう\"]",
   c%"\"tyw\" = [\"\", \"ちぇい\"]",
   c%"\"typ\" = [\"\", \"ちょう\"]",
   c%"\"ca\" = [\"\", \"ちゃ\"]",
   c%"\"cu\" = [\"\", \"ちゅ\"]",
   c%"\"ce\" = [\"\", \"ちぇ\"]",
   c%"\"co\" = [\"\", \"ちょ\"]",
   c%"\"cz\" = [\"\", \"ちゃん\"]",
   c%"\"cn\" = [\"\", \"ちゃん\"]",
   c%"\"cj\" = [\"\", \"ちゅん\"]",
   c%"\"cd\" = [\"\", \"ちぇん\"]",
   c%"\"cl\" = [\"\", \"ちょん\"]",
   c%"\"cq\" = [\"\", \"ちゃい\"]",
   c%"\"ch\" = [\"\", \"ちゅう\"]",
   c%"\"cw\" = [\"\", \"ちぇい\"]",
   c%"\"cp\" = [\"\", \"ちょう\"]",
   c%"\"nya\" = [\"\", \"にゃ\"]",
   c%"\"nyu\" = [\"\", \"にゅ\"]",
   c%"\"nye\" = [\"\", \"にぇ\"]",
   c%"\"nyo\" = [\"\", \"にょ\"]"]

/-- Lines 321-360 of /repo/assets/rules/azik/rule.toml. -/
def azikFile8 : List Str :=
  [c%"\"nyz\" = [\"\", \"にゃん\"]",
   c%"\"nyn\" = [\"\", \"にゃん\"]",
   c%"\"nyj\" = [\"\", \"にゅん\"]",
   c%"\"nyd\" = [\"\", \"にぇん\"]",
   c%"\"nyl\" = [\"\", \"にょん\"]",
   c%"\"nyq\" = [\"\", \"にゃい\"]",
   c%"\"nyh\" = [\"\", \"にゅう\"]",
   c%"\"nyw\" = [\"\", \"にぇい\"]",
   c%"\"nyp\" = [\"\", \"にょう\"]",
   c%"\"nga\" = [\"\", \"にゃ\"]",
   c%"\"ngu\" = [\"\", \"にゅ\"]",
   c%"\"nge\" = [\"\", \"にぇ\"]",
   c%"\"ngo\" = [\"\", \"にょ\"]",
   c%"\"ngz\" = [\"\", \"にゃん\"]",
   c%"\"ngn\" = [\"\", \"にゃん\"]",
   c%"\"ngj\" = [\"\", \"にゅん\"]",
   c%"\"ngd\" = [\"\", \"にぇん\"]",
   c%"\"ngl\" = [\"\", \"にょん\"]",
   c%"\"ngq\" = [\"\", \"にゃい\"]",
   c%"\"ngh\" = [\"\", \"にゅう\"]",
   c%"\"ngw\" = [\"\", \"にぇい\"]",
   c%"\"ngp\" = [\"\", \"にょう\"]",
   c%"\"hya\" = [\"\", \"ひゃ\"]",
   c%"\"hyu\" = [\"\", \"ひゅ\"]",
   c%"\"hye\" = [\"\", \"ひぇ\"]",
   c%"\"hyo\" = [\"\", \"ひょ\"]",
   c%"\"hyz\" = [\"\", \"ひゃん\"]",
   c%"\"hyn\" = [\"\", \"ひゃん\"]",
   c%"\"hyj\" = [\"\", \"ひゅん\"]",
   c%"\"hyd\" = [\"\", \"ひぇん\"]",
   c%"\"hyl\" = [\"\", \"ひょん\"]",
   c%"\"hyq\" = [\"\", \"ひゃい\"]",
   c%"\"hyh\" = [\"\", \"ひゅう\"]",
   c%"\"hyw\" = [\"\", \"ひぇい\"]",
   c%"\"hyp\" = [\"\", \"ひょう\"]",
   c%"\"hga\" = [\"\", \"ひゃ\"]",
   c%"\"hgu\" = [\"\", \"ひゅ\"]",
   c%"\"hge\" = [\"\", \"ひぇ\"]",
   c%"\"hgo\" = [\"\", \"ひょ\"]",
   c%"\"hgz\" = [\"\", \"ひゃん\"]"]

/-- Lines 361-400 of /repo/assets/rules/azik/rule.toml. -/
def azikFile9 : List Str :=
  [c%"\"hgn\" = [\"\", \"ひゃん\"]",
   c%"\"hgj\" = [\"\", \"ひゅん\"]",
   c%"\"hgd\" = [\"\", \"ひぇん\"]",
   c%"\"hgl\" = [\"\", \"ひょん\"]",
   c%"\"hgq\" = [\"\", \"ひゃい\"]",
   c%"\"hgh\" = [\"\", \"ひゅう\"]",
   c%"\"hgw\" = [\"\", \"ひぇい\"]",
   c%"\"hgp\" = [\"\", \"ひょう\"]",
   c%"\"mya\" = [\"\", \"みゃ\"]",
   c%"\"myu\" = [\"\", \"みゅ\"]",
   c%"\"mye\" = [\"\", \"みぇ\"]",
   c%"\"myo\" = [\"\", \"みょ\"]",
   c%"\"myz\" = [\"\", \"みゃん\"]",
   c%"\"myn\" = [\"\", \"みゃん\"]",
   c%"\"myj\" = [\"\", \"みゅん\"]",
   c%"\"myd\" = [\"\", \"みぇん\"]",
   c%"\"myl\" = [\"\", \"みょん\"]",
   c%"\"myq\" = [\"\", \"みゃい\"]",
   c%"\"myh\" = [\"\", \"みゅう\"]",
   c%"\"myw\" = [\"\", \"みぇい\"]",
   c%"\"myp\" = [\"\", \"みょう\"]",
   c%"\"mga\" = [\"\", \"みゃ\"]",
   c%"\"mgu\" = [\"\", \"みゅ\"]",
   c%"\"mge\" = [\"\", \"みぇ\"]",
   c%"\"mgo\" = [\"\", \"みょ\"]",
   c%"\"mgz\" = [\"\", \"みゃん\"]",
   c%"\"mgn\" = [\"\", \"みゃん\"]",
   c%"\"mgj\" = [\"\", \"みゅん\"]",
   c%"\"mgd\" = [\"\", \"みぇん\"]",
   c%"\"mgl\" = [\"\", \"みょん\"]",
   c%"\"mgq\" = [\"\", \"みゃい\"]",
   c%"\"mgh\" = [\"\", \"みゅう\"]",
   c%"\"mgw\" = [\"\", \"みぇい\"]",
   c%"\"mgp\" = [\"\", \"みょう\"]",
   c%"\"rya\" = [\"\", \"りゃ\"]",
   c%"\"ryu\" = [\"\", \"りゅ\"]",
   c%"\"rye\" = [\"\", \"りぇ\"]",
   c%"\"ryo\" = [\"\", \"りょ\"]",
   c%"\"ryz\" = [\"\", \"りゃん\"]",
   c%"\"ryn\" = [\"\", \"りゃん\"]"]

/-- Lines 401-440 of /repo/assets/rules/azik/rule.toml. -/
def azikFile10 : List Str :=
  [c%"\"ryj\" = [\"\", \"りゅん\"]",
   c%"\"ryd\" = [\"\", \"りぇん\"]",
   c%"\"ryl\" = [\"\", \"りょん\"]",
   c%"\"ryq\" = [\"\", \"りゃい\"]",
   c%"\"ryh\" = [\"\", \"りゅう\"]",
   c%"\"ryw\" = [\"\", \"りぇい\"]",
   c%"\"ryp\" = [\"\", \"りょう\"]",
   c%"# 拗音(濁音・半濁音)",
   c%"\"gya\" = [\"\", \"ぎゃ\"]",
   c%"\"gyu\" = [\"\", \"ぎゅ\"]",
   c%"\"gye\" = [\"\", \"ぎぇ\"]",
   c%"\"gyo\" = [\"\", \"ぎょ\"]",
   c%"\"gyz\" = [\"\", \"ぎゃん\"]",
   c%"\"gyn\" = [\"\", \"ぎゃん\"]",
   c%"\"gyj\" = [\"\", \"ぎゅん\"]",
   c%"\"gyd\" = [\"\", \"ぎぇん\"]",
   c%"\"gyl\" = [\"\", \"ぎょん\"]",
   c%"\"gyq\" = [\"\", \"ぎゃい\"]",
   c%"\"gyh\" = [\"\", \"ぎゅう\"]",
   c%"\"gyw\" = [\"\", \"ぎぇい\"]",
   c%"\"gyp\" = [\"\", \"ぎょう\"]",
   c%"\"zya\" = [\"\", \"じゃ\"]",
   c%"\"zyu\" = [\"\", \"じゅ\"]",
   c%"\"zye\" = [\"\", \"じぇ\"]",
   c%"\"zyo\" = [\"\", \"じょ\"]",
   c%"\"zyz\" = [\"\", \"じゃん\"]",
   c%"\"zyn\" = [\"\", \"じゃん\"]",
   c%"\"zyj\" = [\"\", \"じゅん\"]",
   c%"\"zyd\" = [\"\", \"じぇん\"]",
   c%"\"zyl\" = [\"\", \"じょん\"]",
   c%"\"zyq\" = [\"\", \"じゃい\"]",
   c%"\"zyh\" = [\"\", \"じゅう\"]",
   c%"\"zyw\" = [\"\", \"じぇい\"]",
   c%"\"zyp\" = [\"\", \"じょう\"]",
   c%"\"ja\" = [\"\", \"じゃ\"]",
   c%"\"ju\" = [\"\", \"じゅ\"]",
   c%"\"je\" = [\"\", \"じぇ\"]",
   c%"\"jo\" = [\"\", \"じょ\"]",
   c%"\"jz\" = [\"\", \"じゃん\"]",
   c%"\"jn\" = [\"\", \"じゃん\"]"]

/-- Lines 441-480 of /repo/assets/rules/azik/rule.toml. -/
def azikFile11 : List Str :=
  [c%"\"jj\" = [\"\", \"じゅん\"]",
   c%"\"jd\" = [\"\", \"じぇん\"]",
   c%"\"jl\" = [\"\", \"じょん\"]",
   c%"\"jq\" = [\"\", \"じゃい\"]",
   c%"\"jh\" = [\"\", \"じゅう\"]",
   c%"\"jw\" = [\"\", \"じぇい\"]",
   c%"\"jp\" = [\"\", \"じょう\"]",
   c%"\"bya\" = [\"\", \"びゃ\"]",
   c%"\"byu\" = [\"\", \"びゅ\"]",
   c%"\"bye\" = [\"\", \"びぇ\"]",
   c%"\"byo\" = [\"\", \"ぴょ\"]",
   c%"\"byz\" = [\"\", \"びゃん\"]",
   c%"\"byn\" = [\"\", \"びゃん\"]",
   c%"\"byj\" = [\"\", \"びゅん\"]",
   c%"\"byd\" = [\"\", \"びぇん\"]",
   c%"\"byl\" = [\"\", \"びょん\"]",
   c%"\"byq\" = [\"\", \"びゃい\"]",
   c%"\"byh\" = [\"\", \"びゅう\"]",
   c%"\"byw\" = [\"\", \"びぇい\"]",
   c%"\"byp\" = [\"\", \"びょう\"]",
   c%"\"pya\" = [\"\", \"ぴゃ\"]",
   c%"\"pyu\" = [\"\", \"ぴゅ\"]",
   c%"\"pye\" = [\"\", \"ぴぇ\"]",
   c%"\"pyo\" = [\"\", \"ぴょ\"]",
   c%"\"pyz\" = [\"\", \"ぴゃん\"]",
   c%"\"pyn\" = [\"\", \"ぴゃん\"]",
   c%"\"pyj\" = [\"\", \"ぴゅん\"]",
   c%"\"pyd\" = [\"\", \"ぴぇん\"]",
   c%"\"pyl\" = [\"\", \"ぴょん\"]",
   c%"\"pyq\" = [\"\", \"ぴゃい\"]",
   c%"\"pyh\" = [\"\", \"ぴゅう\"]",
   c%"\"pyw\" = [\"\", \"ぴぇい\"]",
   c%"\"pyp\" = [\"\", \"ぴょう\"]",
   c%"\"pga\" = [\"\", \"ぴゃ\"]",
   c%"\"pgu\" = [\"\", \"ぴゅ\"]",
   c%"\"pge\" = [\"\", \"ぴぇ\"]",
   c%"\"pgo\" = [\"\", \"ぴょ\"]",
   c%"\"pgz\" = [\"\", \"ぴゃん\"]",
   c%"\"pgn\" = [\"\", \"ぴゃん\"]",
   c%"\"pgj\" = [\"\", \"ぴゅん\"]"]

/-- Lines 481-520 of /repo/assets/rules/azik/rule.toml. -/
def azikFile12 : List Str :=
  [c%"\"pgd\" = [\"\", \"ぴぇん\"]",
   c%"\"pgl\" = [\"\", \"ぴょん\"]",
   c%"\"pgq\" = [\"\", \"ぴゃい\"]",
   c%"\"pgh\" = [\"\", \"ぴゅう\"]",
   c%"\"pgw\" = [\"\", \"ぴぇい\"]",
   c%"\"pgp\" = [\"\", \"ぴょう\"]",
   c%"# 拗音(外来語他)",
   c%"\"va\" = [\"\", \"ゔぁ\"]",
   c%"\"vi\" = [\"\", \"ゔぃ\"]",
   c%"\"vu\" = [\"\", \"ゔ\"]",
   c%"\"ve\" = [\"\", \"ゔぇ\"]",
   c%"\"vo\" = [\"\", \"ゔぉ\"]",
   c%"\"vz\" = [\"\", \"ゔぁん\"]",
   c%"\"vn\" = [\"\", \"ゔぁん\"]",
   c%"\"vj\" = [\"\", \"ゔん\"]",
   c%"\"vd\" = [\"\", \"ゔぇん\"]",
   c%"\"vl\" = [\"\", \"ゔぉん\"]",
   c%"\"vq\" = [\"\", \"ゔぁい\"]",
   c%"\"vh\" = [\"\", \"ゔう\"]",
   c%"\"vw\" = [\"\", \"ゔぇい\"]",
   c%"\"vp\" = [\"\", \"ゔぉう\"]",
   c%"\"tgi\" = [\"\", \"てぃ\"]",
   c%"\"tgu\" = [\"\", \"とぅ\"]",
   c%"\"tgj\" = [\"\", \"とぅん\"]",
   c%"\"tgh\" = [\"\", \"とぅう\"]",
   c%"\"dci\" = [\"\", \"でぃ\"]",
   c%"\"dcu\" = [\"\", \"どぅ\"]",
   c%"\"dcj\" = [\"\", \"どぅん\"]",
   c%"\"dch\" = [\"\", \"どぅう\"]",
   c%"\"wso\" = [\"\", \"うぉ\"]",
   c%"\"wsl\" = [\"\", \"うぉん\"]",
   c%"\"wsp\" = [\"\", \"うぉう\"]",
   c%"# L前置拗音",
   c%"#\"la\" = [\"\",\"ぁ\"]",
   c%"#\"li\" = [\"\",\"ぃ\"]",
   c%"#\"lu\" = [\"\",\"ぅ\"]",
   c%"#\"le\" = [\"\",\"ぇ\"]",
   c%"#\"lo\" = [\"\",\"ぉ\"]",
   c%"#\"lya\" = [\"\",\"ゃ\"]",
   c%"#\"lyu\" = [\"\",\"ゅ\"]"]

/-- Lines 521-560 of /repo/assets/rules/azik/rule.toml. -/
def azikFile13 : List Str :=
  [c%"#\"lyo\" = [\"\",\"ょ\"]",
   c%"# xx前置拗音に置き換える",
   c%"\"xxa\" = [\"\", \"ぁ\"]",
   c%"\"xxi\" = [\"\", \"ぃ\"]",
   c%"\"xxu\" = [\"\", \"ぅ\"]",
   c%"\"xxe\" = [\"\", \"ぇ\"]",
   c%"\"xxo\" = [\"\", \"ぉ\"]",
   c%"\"xxya\" = [\"\", \"ゃ\"]",
   c%"\"xxyu\" = [\"\", \"ゅ\"]",
   c%"\"xxyo\" = [\"\", \"ょ\"]",
   c%"\"xxwa\" = [\"\", \"ゎ\"]",
   c%"# 同指打鍵互換",
   c%"\"kf\" = [\"\", \"き\"]",
   c%"\"jf\" = [\"\", \"じゅ\"]",
   c%"\"hf\" = [\"\", \"ふ\"]",
   c%"\"yf\" = [\"\", \"ゆ\"]",
   c%"\"mf\" = [\"\", \"む\"]",
   c%"\"nf\" = [\"\", \"ぬ\"]",
   c%"\"df\" = [\"\", \"で\"]",
   c%"\"cf\" = [\"\", \"ちぇ\"]",
   c%"\"pf\" = [\"\", \"ぽん\"]",
   c%"# 特殊",
   c%"\"zc\" = [\"\", \"ざ\"]",
   c%"\"zv\" = [\"\", \"ざい\"]",
   c%"\"zx\" = [\"\", \"ぜい\"]",
   c%"\"kt\" = [\"\", \"こと\"]",
   c%"\"st\" = [\"\", \"した\"]",
   c%"\"tt\" = [\"\", \"たち\"]",
   c%"\"h t\" = [\"\", \"ひと\"]",
   c%"\"wt\" = [\"\", \"わた\"]",
   c%"\"mn\" = [\"\", \"もの\"]",
   c%"\"ms\" = [\"\", \"ます\"]",
   c%"\"ds\" = [\"\", \"です\"]",
   c%"\"km\" = [\"\", \"かも\"]",
   c%"\"tm\" = [\"\", \"ため\"]",
   c%"\"dm\" = [\"\", \"でも\"]",
   c%"\"kr\" = [\"\", \"から\"]",
   c%"\"sr\" = [\"\", \"する\"]",
   c%"\"tr\" = [\"\", \"たら\"]",
   c%"\"nr\" = [\"\", \"なる\"]"]

/-- Lines 561-600 of /repo/assets/rules/azik/rule.toml. -/
def azikFile14 : List Str :=
  [c%"\"yr\" = [\"\", \"よる\"]",
   c%"\"rr\" = [\"\", \"られ\"]",
   c%"\"zr\" = [\"\", \"ざる\"]",
   c%"\"mt\" = [\"\", \"また\"]",
   c%"\"tb\" = [\"\", \"たび\"]",
   c%"\"nb\" = [\"\", \"ねば\"]",
   c%"\"bt\" = [\"\", \"びと\"]",
   c%"\"gr\" = [\"\", \"がら\"]",
   c%"\"gt\" = [\"\", \"ごと\"]",
   c%"\"nt\" = [\"\", \"にち\"]",
   c%"\"dt\" = [\"\", \"だち\"]",
   c%"\"wr\" = [\"\", \"われ\"]",
   c%"# 独自拡張",
   c%"\"xxtu\" = [\"\", \"っ\"]",
   c%"\"tU\" = [\"\", \"っ\"]",
   c%"",
   c%"",
   c%"[command]",
   c%"# Hiraganaモード時のコマンド",
   c%"[direct.hiragana]",
   c%"\"l\" = [\"ForceKanaConvert(Hiragana)\", \"ChangeInputMode(Ascii)\", \"FlushPreviousCarryOver\"]",
   c%"\"L\" = [\"ForceKanaConvert(Hiragana)\", \"ChangeInputMode(Zenkaku)\", \"FlushPreviousCarryOver\"]",
   c%"\"C-at\" = [\"ForceKanaConvert(Hiragana)\", \"ChangeInputMode(HankakuKatakana)\", \"FlushPreviousCarryOver\"]",
   c%"\"at\" = [\"ForceKanaConvert(Hiragana)\", \"ChangeInputMode(Katakana)\", \"FlushPreviousCarryOver\"]",
   c%"\"braceleft\" = [\"ChangeCompositionMode(PreComposition)\"]",
   c%"\"C-j\" = [\"FinishKeyEvent\"]",
   c%"\"C-g\" = [\"Abort\"]",
   c%"\"C-G\" = [\"Abort\"]",
   c%"\"Return\" = [\"ConfirmDirect\"]",
   c%"\"C-m\" = [\"ConfirmDirect\"]",
   c%"\"BackSpace\" = [\"Delete\"]",
   c%"\"C-h\" = [\"Delete\"]",
   c%"\"C-H\" = [\"Delete\"]",
   c%"\"slash\" = [\"ChangeCompositionMode(Abbreviation)\"]",
   c%"",
   c%"# Katakanaモード時のコマンド",
   c%"[direct.katakana]",
   c%"\"l\" = [\"ForceKanaConvert(Katakana)\", \"ChangeInputMode(Ascii)\", \"FlushPreviousCarryOver\"]",
   c%"\"L\" = [\"ForceKanaConvert(Katakana)\", \"ChangeInputMode(Zenkaku)\", \"FlushPreviousCarryOver\"]",
   c%"\"C-at\" = [\"ForceKanaConvert(Katakana)\", \"ChangeInputMode(HankakuKatakana)\", \"FlushPreviousCarryOver\"]"]

/-- Lines 601-640 of /repo/assets/rules/azik/rule.toml. -/
def azikFile15 : List Str :=
  [c%"\"at\" = [\"ForceKanaConvert(Katakana)\", \"ChangeInputMode(Hiragana)\", \"FlushPreviousCarryOver\"]",
   c%"\"braceleft\" = [\"ChangeCompositionMode(PreComposition)\"]",
   c%"\"C-j\" = [\"FinishKeyEvent\"]",
   c%"\"C-g\" = [\"Abort\"]",
   c%"\"C-G\" = [\"Abort\"]",
   c%"\"Return\" = [\"ConfirmDirect\"]",
   c%"\"C-m\" = [\"ConfirmDirect\"]",
   c%"\"BackSpace\" = [\"Delete\"]",
   c%"\"C-h\" = [\"Delete\"]",
   c%"\"C-H\" = [\"Delete\"]",
   c%"\"slash\" = [\"ChangeCompositionMode(Abbreviation)\"]",
   c%"",
   c%"# 半角カナ(JIS X 0201 カナ)モード時のコマンド",
   c%"[direct.hankakukatakana]",
   c%"\"l\" = [\"ForceKanaConvert(HankakuKatakana)\", \"ChangeInputMode(Ascii)\", \"FlushPreviousCarryOver\"]",
   c%"\"L\" = [\"ForceKanaConvert(HankakuKatakana)\", \"ChangeInputMode(Zenkaku)\", \"FlushPreviousCarryOver\"]",
   c%"\"C-at\" = [\"ForceKanaConvert(HankakuKatakana)\", \"ChangeInputMode(Katakana)\", \"FlushPreviousCarryOver\"]",
   c%"\"at\" = [\"ForceKanaConvert(HankakuKatakana)\", \"ChangeInputMode(Hiragana)\", \"FlushPreviousCarryOver\"]",
   c%"\"braceleft\" = [\"ChangeCompositionMode(PreComposition)\"]",
   c%"\"C-j\" = [\"FinishKeyEvent\"]",
   c%"\"C-g\" = [\"Abort\"]",
   c%"\"C-G\" = [\"Abort\"]",
   c%"\"Return\" = [\"ConfirmDirect\"]",
   c%"\"C-m\" = [\"ConfirmDirect\"]",
   c%"\"BackSpace\" = [\"Delete\"]",
   c%"\"C-h\" = [\"Delete\"]",
   c%"\"C-H\" = [\"Delete\"]",
   c%"\"slash\" = [\"ChangeCompositionMode(Abbreviation)\"]",
   c%"",
   c%"# 全角英数モード時のコマンド",
   c%"[direct.zenkaku]",
   c%"\"C-g\" = [\"Abort\"]",
   c%"\"C-j\" = [\"ChangeInputMode(Hiragana)\"]",
   c%"\"Return\" = [\"ConfirmDirect\"]",
   c%"\"C-m\" = [\"ConfirmDirect\"]",
   c%"\"BackSpace\" = [\"Delete\"]",
   c%"\"C-h\" = [\"Delete\"]",
   c%"\"C-H\" = [\"Delete\"]",
   c%"# asciiモードという名称はddskk由来。いわゆるlatinモードでのコマンド",
   c%"[direct.ascii]"]

/-- Lines 641-680 of /repo/assets/rules/azik/rule.toml. -/
def azikFile16 : List Str :=
  [c%"\"C-g\" = [\"Abort\"]",
   c%"\"C-j\" = [\"ChangeInputMode(Hiragana)\"]",
   c%"\"Return\" = [\"ConfirmDirect\"]",
   c%"\"C-m\" = [\"ConfirmDirect\"]",
   c%"\"BackSpace\" = [\"Delete\"]",
   c%"\"C-h\" = [\"Delete\"]",
   c%"\"C-H\" = [\"Delete\"]",
   c%"",
   c%"[pre_composition.hiragana]",
   c%"\"space\" = [\"TryNextCandidate\"]",
   c%"\"at\" = [\"ForceKanaConvert(Katakana)\", \"ConfirmAs(Katakana)\", \"ChangeCompositionMode(Direct)\"]",
   c%"\"C-at\" = [\"ConfirmAs(HankakuKatakana)\", \"ChangeCompositionMode(Direct)\"]",
   c%"\"C-g\" = [\"ClearUnconfirmedInputs\", \"Abort\"]",
   c%"\"C-j\" = [\"ForceKanaConvert(Hiragana)\", \"ConfirmAs(Hiragana)\", \"ChangeCompositionMode(Direct)\"]",
   c%"\"BackSpace\" = [\"Delete\"]",
   c%"\"C-h\" = [\"Delete\"]",
   c%"[pre_composition.katakana]",
   c%"\"space\" = [\"TryNextCandidate\"]",
   c%"\"at\" = [\"ForceKanaConvert(Hiragana)\", \"ConfirmAs(Hiragana)\", \"ChangeCompositionMode(Direct)\"]",
   c%"\"C-at\" = [\"ConfirmAs(HankakuKatakana)\", \"ChangeCompositionMode(Direct)\"]",
   c%"\"C-g\" = [\"ClearUnconfirmedInputs\", \"Abort\"]",
   c%"\"C-j\" = [\"ForceKanaConvert(Katakana)\", \"ConfirmAs(Katakana)\", \"ChangeCompositionMode(Direct)\"]",
   c%"\"BackSpace\" = [\"Delete\"]",
   c%"\"C-h\" = [\"Delete\"]",
   c%"[pre_composition.hankakukatakana]",
   c%"\"space\" = [\"TryNextCandidate\"]",
   c%"\"at\" = [\"ForceKanaConvert(Hiragana)\", \"ConfirmAs(Hiragana)\", \"ChangeCompositionMode(Direct)\"]",
   c%"\"C-at\" = [\"ConfirmAs(Katakana)\", \"ChangeCompositionMode(Direct)\"]",
   c%"\"C-g\" = [\"ClearUnconfirmedInputs\", \"Abort\"]",
   c%"\"C-j\" = [\"ForceKanaConvert(HankakuKatakana)\", \"ConfirmAs(HankakuKatakana)\", \"ChangeCompositionMode(Direct)\"]",
   c%"\"BackSpace\" = [\"Delete\"]",
   c%"\"C-h\" = [\"Delete\"]",
   c%"",
   c%"[pre_compisition_okurigana.hiragana]",
   c%"\"space\" = [\"TryNextCandidate\"]",
   c%"\"at\" = [\"ForceKanaConvert(Katakana)\", \"ConfirmAs(Katakana)\", \"ChangeCompositionMode(Direct)\"]",
   c%"\"C-at\" = [\"ConfirmAs(HankakuKatakana)\", \"ChangeCompositionMode(Direct)\"]",
   c%"\"C-g\" = [\"ClearUnconfirmedInputs\", \"Abort\"]",
   c%"\"C-j\" = [\"ForceKanaConvert(Hiragana)\", \"ConfirmAs(Hiragana)\", \"ChangeCompositionMode(Direct)\"]",
   c%"\"BackSpace\" = [\"Delete\"]"]

/-- Lines 681-720 of /repo/assets/rules/azik/rule.toml. -/
def azikFile17 : List Str :=
  [c%"\"C-h\" = [\"Delete\"]",
   c%"[pre_compisition_okurigana.katakana]",
   c%"\"space\" = [\"TryNextCandidate\"]",
   c%"\"at\" = [\"ForceKanaConvert(Hiragana)\", \"ConfirmAs(Hiragana)\", \"ChangeCompositionMode(Direct)\"]",
   c%"\"C-at\" = [\"ConfirmAs(HankakuKatakana)\", \"ChangeCompositionMode(Direct)\"]",
   c%"\"C-g\" = [\"ClearUnconfirmedInputs\", \"Abort\"]",
   c%"\"C-j\" = [\"ForceKanaConvert(Katakana)\", \"ConfirmAs(Katakana)\", \"ChangeCompositionMode(Direct)\"]",
   c%"\"BackSpace\" = [\"Delete\"]",
   c%"\"C-h\" = [\"Delete\"]",
   c%"[pre_compisition_okurigana.hankakukatakana]",
   c%"\"space\" = [\"TryNextCandidate\"]",
   c%"\"at\" = [\"ForceKanaConvert(Hiragana)\", \"ConfirmAs(Hiragana)\", \"ChangeCompositionMode(Direct)\"]",
   c%"\"C-at\" = [\"ConfirmAs(Katakana)\", \"ChangeCompositionMode(Direct)\"]",
   c%"\"C-g\" = [\"ClearUnconfirmedInputs\", \"Abort\"]",
   c%"\"C-j\" = [\"ForceKanaConvert(HankakuKatakana)\", \"ConfirmAs(HankakuKatakana)\", \"ChangeCompositionMode(Direct)\"]",
   c%"\"BackSpace\" = [\"Delete\"]",
   c%"\"C-h\" = [\"Delete\"]",
   c%"",
   c%"[abbreviation.hiragana]",
   c%"\"space\" = [\"TryNextCandidate\"]",
   c%"\"BackSpace\" = [\"Delete\"]",
   c%"\"C-h\" = [\"Delete\"]",
   c%"\"C-j\" = [\"ConfirmAs(Ascii)\", \"ChangeCompositionMode(Direct)\"]",
   c%"\"C-q\" = [\"ConfirmAs(Zenkaku)\", \"ChangeCompositionMode(Direct)\"]",
   c%"[abbreviation.katakana]",
   c%"\"space\" = [\"TryNextCandidate\"]",
   c%"\"BackSpace\" = [\"Delete\"]",
   c%"\"C-h\" = [\"Delete\"]",
   c%"\"C-j\" = [\"ConfirmAs(Ascii)\", \"ChangeCompositionMode(Direct)\"]",
   c%"\"C-q\" = [\"ConfirmAs(Zenkaku)\", \"ChangeCompositionMode(Direct)\"]",
   c%"[abbreviation.hankakukatakana]",
   c%"\"space\" = [\"TryNextCandidate\"]",
   c%"\"BackSpace\" = [\"Delete\"]",
   c%"\"C-h\" = [\"Delete\"]",
   c%"\"C-j\" = [\"ConfirmAs(Ascii)\", \"ChangeCompositionMode(Direct)\"]",
   c%"\"C-q\" = [\"ConfirmAs(Zenkaku)\", \"ChangeCompositionMode(Direct)\"]",
   c%"",
   c%"[composition_selection.hiragana]",
   c%"\"Return\" = [\"ConfirmComposition\"]",
   c%"\"C-j\" = [\"ConfirmComposition\"]"]

/-- Lines 721-760 of /repo/assets/rules/azik/rule.toml. -/
def azikFile18 : List Str :=
  [c%"\"Escape\" = [\"Abort\"]",
   c%"\"C-g\" = [\"Abort\"]",
   c%"\"X\" = [\"Purge\", \"ChangeCompositionMode(Direct)\"]",
   c%"\"space\" = [\"TryNextCandidate\"]",
   c%"\"x\" = [\"TryPreviousCandidate\"]",
   c%"\"BackSpace\" = [\"ConfirmComposition\", \"Delete\"]",
   c%"\"C-h\" = [\"ConfirmComposition\", \"Delete\"]",
   c%"\"at\" = [\"ConfirmComposition\", \"ChangeInputMode(Katakana)\"]",
   c%"\"C-at\" = [\"ConfirmComposition\", \"ChangeInputMode(HankakuKatakana)\"]",
   c%"[composition_selection.katakana]",
   c%"\"Return\" = [\"ConfirmComposition\"]",
   c%"\"C-j\" = [\"ConfirmComposition\"]",
   c%"\"Escape\" = [\"Abort\"]",
   c%"\"C-g\" = [\"Abort\"]",
   c%"\"X\" = [\"Purge\", \"ChangeCompositionMode(Direct)\"]",
   c%"\"space\" = [\"TryNextCandidate\"]",
   c%"\"BackSpace\" = [\"ConfirmComposition\", \"Delete\"]",
   c%"\"C-h\" = [\"ConfirmComposition\", \"Delete\"]",
   c%"\"at\" = [\"ConfirmComposition\", \"ChangeInputMode(Hiragana)\"]",
   c%"\"C-at\" = [\"ConfirmComposition\",  \"ChangeInputMode(HankakuKatakana)\"]",
   c%"[composition_selection.hankakukatakana]",
   c%"\"Return\" = [\"ConfirmComposition\"]",
   c%"\"C-j\" = [\"ConfirmComposition\"]",
   c%"\"Escape\" = [\"Abort\"]",
   c%"\"C-g\" = [\"Abort\"]",
   c%"\"X\" = [\"Purge\", \"ChangeCompositionMode(Direct)\"]",
   c%"\"space\" = [\"TryNextCandidate\"]",
   c%"\"BackSpace\" = [\"ConfirmComposition\",  \"Delete\"]",
   c%"\"C-h\" = [\"ConfirmComposition\",  \"Delete\"]",
   c%"\"at\" = [\"ConfirmComposition\", \"ChangeInputMode(Hiragana)\"]",
   c%"\"C-at\" = [\"ConfirmComposition\", \"ChangeInputMode(Katakana)\"]",
   c%"",
   c%"[completion.hiragana]",
   c%"\"Return\" = [\"ConfirmComposition\"]",
   c%"\"C-j\" = [\"ConfirmComposition\"]",
   c%"\"Tab\" = [\"NextCandidatePointer\"]",
   c%"\"period\" = [\"NextCandidatePointer\"]",
   c%"\"(shift Tab)\" = [\"PreviousCandidatePointer\"]",
   c%"\"comma\" = [\"PreviousCandidatePointer\"]",
   c%"\"C-g\" = [\"Abort\"]"]

/-- Lines 761-782 of /repo/assets/rules/azik/rule.toml. -/
def azikFile19 : List Str :=
  [c%"\"Escape\" = [\"Abort\"]",
   c%"\"BackSpace\" = [\"ConfirmComposition\", \"Delete\"]",
   c%"[completion.katakana]",
   c%"\"Return\" = [\"ConfirmComposition\"]",
   c%"\"C-j\" = [\"ConfirmComposition\"]",
   c%"\"Tab\" = [\"NextCandidatePointer\"]",
   c%"\"period\" = [\"NextCandidatePointer\"]",
   c%"\"(shift Tab)\" = [\"PreviousCandidatePointer\"]",
   c%"\"comma\" = [\"PreviousCandidatePointer\"]",
   c%"\"C-g\" = [\"Abort\"]",
   c%"\"Escape\" = [\"Abort\"]",
   c%"\"BackSpace\" = [\"ConfirmComposition\", \"Delete\"]",
   c%"[completion.hankakukatakana]",
   c%"\"Return\" = [\"ConfirmComposition\"]",
   c%"\"C-j\" = [\"ConfirmComposition\"]",
   c%"\"Tab\" = [\"NextCandidatePointer\"]",
   c%"\"period\" = [\"NextCandidatePointer\"]",
   c%"\"(shift Tab)\" = [\"PreviousCandidatePointer\"]",
   c%"\"comma\" = [\"PreviousCandidatePointer\"]",
   c%"\"C-g\" = [\"Abort\"]",
   c%"\"Escape\" = [\"Abort\"]",
   c%"\"BackSpace\" = [\"ConfirmComposition\", \"Delete\"]"]

/-- The lines of /repo/assets/rules/azik/rule.toml. -/
def azikFileLines : List (List Str) :=
  [azikFile0, azikFile1, azikFile2, azikFile3, azikFile4, azikFile5, azikFile6, azikFile7, azikFile8, azikFile9, azikFile10, azikFile11, azikFile12, azikFile13, azikFile14, azikFile15, azikFile16, azikFile17, azikFile18, azikFile19]

/-- The text of /repo/assets/rules/azik/rule.toml. -/
def azikFile : Str := joinLines azikFileLines.flatten

/-- Lines 1-26 of /repo/assets/rule/ascii_form.toml. -/
def asciiFormFile0 : List Str :=
  [c%"# Can't use key/value table to allow space!",
   c%"hankaku = [\" \", \"!\", \"\\\"\", \"#\", \"$\", \"%\", \"&\", \"'\",",
   c%"    \"(\", \")\", \"*\", \"+\", \",\", \"-\", \".\", \"/\",",
   c%"    \"0\", \"1\", \"2\", \"3\", \"4\", \"5\", \"6\", \"7\",",
   c%"    \"8\", \"9\", \":\", \";\", \"<\", \"=\", \">\", \"?\",",
   c%"    \"@\", \"A\", \"B\", \"C\", \"D\", \"E\", \"F\", \"G\",",
   c%"    \"H\", \"I\", \"J\", \"K\", \"L\", \"M\", \"N\", \"O\",",
   c%"    \"P\", \"Q\", \"R\", \"S\", \"T\", \"U\", \"V\", \"W\",",
   c%"    \"X\", \"Y\", \"Z\", \"[\", \"\\\\\", \"]\", \"^\", \"_\",",
   c%"    \"'\", \"a\", \"b\", \"c\", \"d\", \"e\", \"f\", \"g\",",
   c%"    \"h\", \"i\", \"j\", \"k\", \"l\", \"m\", \"n\", \"o\",",
   c%"    \"p\", \"q\", \"r\", \"s\", \"t\", \"u\", \"v\", \"w\",",
   c%"    \"x\", \"y\", \"z\", \"{\", \"|\", \"}\", \"~\"]",
   c%"zenkaku = [\"　\", \"！\", \"”\", \"＃\", \"＄\", \"％\", \"＆\", \"’\",",
   c%"    \"（\", \"）\", \"＊\", \"＋\", \"，\", \"−\", \"．\", \"／\",",
   c%"    \"０\", \"１\", \"２\", \"３\", \"４\", \"５\", \"６\", \"７\",",
   c%"    \"８\", \"９\", \"：\", \"；\", \"＜\", \"＝\", \"＞\", \"？\",",
   c%"    \"＠\", \"Ａ\", \"Ｂ\", \"Ｃ\", \"Ｄ\", \"Ｅ\", \"Ｆ\", \"Ｇ\",",
   c%"    \"Ｈ\", \"Ｉ\", \"Ｊ\", \"Ｋ\", \"Ｌ\", \"Ｍ\", \"Ｎ\", \"Ｏ\",",
   c%"    \"Ｐ\", \"Ｑ\", \"Ｒ\", \"Ｓ\", \"Ｔ\", \"Ｕ\", \"Ｖ\", \"Ｗ\",",
   c%"    \"Ｘ\", \"Ｙ\", \"Ｚ\", \"［\", \"＼\", \"］\", \"＾\", \"＿\",",
   c%"    \"‘\", \"ａ\", \"ｂ\", \"ｃ\", \"ｄ\", \"ｅ\", \"ｆ\", \"ｇ\",",
   c%"    \"ｈ\", \"ｉ\", \"ｊ\", \"ｋ\", \"ｌ\", \"ｍ\", \"ｎ\", \"ｏ\",",
   c%"    \"ｐ\", \"ｑ\", \"ｒ\", \"ｓ\", \"ｔ\", \"ｕ\", \"ｖ\", \"ｗ\",",
   c%"    \"ｘ\", \"ｙ\", \"ｚ\", \"｛\", \"｜\", \"｝\", \"〜\"]",
   c%""]

/-- The lines of /repo/assets/rule/ascii_form.toml. -/
def asciiFormFileLines : List (List Str) :=
  [asciiFormFile0]

/-- The text of /repo/assets/rule/ascii_form.toml. -/
def asciiFormFile : Str := joinLines asciiFormFileLines.flatten

/-- Lines 1-40 of /repo/assets/rule/kana_form.toml. -/
def kanaFormFile0 : List Str :=
  [c%"[katakana]",
   c%"\"あ\" = \"ア\"",
   c%"\"い\" = \"イ\"",
   c%"\"う\" = \"ウ\"",
   c%"\"え\" = \"エ\"",
   c%"\"お\" = \"オ\"",
   c%"\"か\" = \"カ\"",
   c%"\"き\" = \"キ\"",
   c%"\"く\" = \"ク\"",
   c%"\"け\" = \"ケ\"",
   c%"\"こ\" = \"コ\"",
   c%"\"さ\" = \"サ\"",
   c%"\"し\" = \"シ\"",
   c%"\"す\" = \"ス\"",
   c%"\"せ\" = \"セ\"",
   c%"\"そ\" = \"ソ\"",
   c%"\"た\" = \"タ\"",
   c%"\"ち\" = \"チ\"",
   c%"\"つ\" = \"ツ\"",
   c%"\"て\" = \"テ\"",
   c%"\"と\" = \"ト\"",
   c%"\"な\" = \"ナ\"",
   c%"\"に\" = \"ニ\"",
   c%"\"ぬ\" = \"ヌ\"",
   c%"\"ね\" = \"ネ\"",
   c%"\"の\" = \"ノ\"",
   c%"\"は\" = \"ハ\"",
   c%"\"ひ\" = \"ヒ\"",
   c%"\"ふ\" = \"フ\"",
   c%"\"へ\" = \"ヘ\"",
   c%"\"ほ\" = \"ホ\"",
   c%"\"ま\" = \"マ\"",
   c%"\"み\" = \"ミ\"",
   c%"\"む\" = \"ム\"",
   c%"\"め\" = \"メ\"",
   c%"\"も\" = \"モ\"",
   c%"\"や\" = \"ヤ\"",
   c%"\"ゆ\" = \"ユ\"",
   c%"\"よ\" = \"ヨ\"",
   c%"\"ら\" = \"ラ\""]

/-- Lines 41-80 of /repo/assets/rule/kana_form.toml. -/
def kanaFormFile1 : List Str :=
  [c%"\"り\" = \"リ\"",
   c%"\"る\" = \"ル\"",
   c%"\"れ\" = \"レ\"",
   c%"\"ろ\" = \"ロ\"",
   c%"\"わ\" = \"ワ\"",
   c%"\"ゐ\" = \"ヰ\"",
   c%"\"ゑ\" = \"ヱ\"",
   c%"\"を\" = \"ヲ\"",
   c%"\"ん\" = \"ン\"",
   c%"\"ゔ\" = \"ヴ\"",
   c%"\"が\" = \"ガ\"",
   c%"\"ぎ\" = \"ギ\"",
   c%"\"ぐ\" = \"グ\"",
   c%"\"げ\" = \"ゲ\"",
   c%"\"ご\" = \"ゴ\"",
   c%"\"ざ\" = \"ザ\"",
   c%"\"じ\" = \"ジ\"",
   c%"\"ず\" = \"ズ\"",
   c%"\"ぜ\" = \"ゼ\"",
   c%"\"ぞ\" = \"ゾ\"",
   c%"\"だ\" = \"ダ\"",
   c%"\"ぢ\" = \"ヂ\"",
   c%"\"づ\" = \"ヅ\"",
   c%"\"で\" = \"デ\"",
   c%"\"ど\" = \"ド\"",
   c%"\"ば\" = \"バ\"",
   c%"\"び\" = \"ビ\"",
   c%"\"ぶ\" = \"ブ\"",
   c%"\"べ\" = \"ベ\"",
   c%"\"ぼ\" = \"ボ\"",
   c%"\"ぱ\" = \"パ\"",
   c%"\"ぴ\" = \"ピ\"",
   c%"\"ぷ\" = \"プ\"",
   c%"\"ぺ\" = \"ペ\"",
   c%"\"ぽ\" = \"ポ\"",
   c%"\"ぁ\" = \"ァ\"",
   c%"\"ぃ\" = \"ィ\"",
   c%"\"ぅ\" = \"ゥ\"",
   c%"\"ぇ\" = \"ェ\"",
   c%"\"ぉ\" = \"ォ\""]

/-- Lines 81-120 of /repo/assets/rule/kana_form.toml. -/
def kanaFormFile2 : List Str :=
  [c%"\"っ\" = \"ッ\"",
   c%"\"ゃ\" = \"ャ\"",
   c%"\"ゅ\" = \"ュ\"",
   c%"\"ょ\" = \"ョ\"",
   c%"\"ゎ\" = \"ヮ\"",
   c%"\"ゕ\" = \"ヵ\"",
   c%"\"ゖ\" = \"ヶ\"",
   c%"\"・\" = \"・\"",
   c%"\"ー\" = \"ー\"",
   c%"\"゛\" = \"゛\"",
   c%"\"゜\" = \"゜\"",
   c%"\"、\" = \"、\"",
   c%"\"う゛\" = \"ヴ\"",
   c%"\"ゝ\" = \"ヽ\"",
   c%"\"ゞ\" = \"ヾ\"",
   c%"",
   c%"[jisx0201]",
   c%"\"あ\" = \"ｱ\"",
   c%"\"い\" = \"ｲ\"",
   c%"\"う\" = \"ｳ\"",
   c%"\"え\" = \"ｴ\"",
   c%"\"お\" = \"ｵ\"",
   c%"\"か\" = \"ｶ\"",
   c%"\"き\" = \"ｷ\"",
   c%"\"く\" = \"ｸ\"",
   c%"\"け\" = \"ｹ\"",
   c%"\"こ\" = \"ｺ\"",
   c%"\"さ\" = \"ｻ\"",
   c%"\"し\" = \"ｼ\"",
   c%"\"す\" = \"ｽ\"",
   c%"\"せ\" = \"ｾ\"",
   c%"\"そ\" = \"ｿ\"",
   c%"\"た\" = \"ﾀ\"",
   c%"\"ち\" = \"ﾁ\"",
   c%"\"つ\" = \"ﾂ\"",
   c%"\"て\" = \"ﾃ\"",
   c%"\"と\" = \"ﾄ\"",
   c%"\"な\" = \"ﾅ\"",
   c%"\"に\" = \"ﾆ\"",
   c%"\"ぬ\" = \"ﾇ\""]

/-- Lines 121-160 of /repo/assets/rule/kana_form.toml. -/
def kanaFormFile3 : List Str :=
  [c%"\"ね\" = \"ﾈ\"",
   c%"\"の\" = \"ﾉ\"",
   c%"\"は\" = \"ﾊ\"",
   c%"\"ひ\" = \"ﾋ\"",
   c%"\"ふ\" = \"ﾌ\"",
   c%"\"へ\" = \"ﾍ\"",
   c%"\"ほ\" = \"ﾎ\"",
   c%"\"ま\" = \"ﾏ\"",
   c%"\"み\" = \"ﾐ\"",
   c%"\"む\" = \"ﾑ\"",
   c%"\"め\" = \"ﾒ\"",
   c%"\"も\" = \"ﾓ\"",
   c%"\"や\" = \"ﾔ\"",
   c%"\"ゆ\" = \"ﾕ\"",
   c%"\"よ\" = \"ﾖ\"",
   c%"\"ら\" = \"ﾗ\"",
   c%"\"り\" = \"ﾘ\"",
   c%"\"る\" = \"ﾙ\"",
   c%"\"れ\" = \"ﾚ\"",
   c%"\"ろ\" = \"ﾛ\"",
   c%"\"わ\" = \"ﾜ\"",
   c%"\"ゐ\" = \"ｲ\"",
   c%"\"ゑ\" = \"ｴ\"",
   c%"\"を\" = \"ｦ\"",
   c%"\"ん\" = \"ﾝ\"",
   c%"\"ゔ\" = \"ｳﾞ\"",
   c%"\"が\" = \"ｶﾞ\"",
   c%"\"ぎ\" = \"ｷﾞ\"",
   c%"\"ぐ\" = \"ｸﾞ\"",
   c%"\"げ\" = \"ｹﾞ\"",
   c%"\"ご\" = \"ｺﾞ\"",
   c%"\"ざ\" = \"ｻﾞ\"",
   c%"\"じ\" = \"ｼﾞ\"",
   c%"\"ず\" = \"ｽﾞ\"",
   c%"\"ぜ\" = \"ｾﾞ\"",
   c%"\"ぞ\" = \"ｿﾞ\"",
   c%"\"だ\" = \"ﾀﾞ\"",
   c%"\"ぢ\" = \"ﾁﾞ\"",
   c%"\"づ\" = \"ﾂﾞ\"",
   c%"\"で\" = \"ﾃﾞ\""]

/-- Lines 161-194 of /repo/assets/rule/kana_form.toml. -/
def kanaFormFile4 : List Str :=
  [c%"\"ど\" = \"ﾄﾞ\"",
   c%"\"ば\" = \"ﾊﾞ\"",
   c%"\"び\" = \"ﾋﾞ\"",
   c%"\"ぶ\" = \"ﾌﾞ\"",
   c%"\"べ\" = \"ﾍﾞ\"",
   c%"\"ぼ\" = \"ﾎﾞ\"",
   c%"\"ぱ\" = \"ﾊﾟ\"",
   c%"\"ぴ\" = \"ﾋﾟ\"",
   c%"\"ぷ\" = \"ﾌﾟ\"",
   c%"\"ぺ\" = \"ﾍﾟ\"",
   c%"\"ぽ\" = \"ﾎﾟ\"",
   c%"\"ぁ\" = \"ｧ\"",
   c%"\"ぃ\" = \"ｨ\"",
   c%"\"ぅ\" = \"ｩ\"",
   c%"\"ぇ\" = \"ｪ\"",
   c%"\"ぉ\" = \"ｫ\"",
   c%"\"っ\" = \"ｯ\"",
   c%"\"ゃ\" = \"ｬ\"",
   c%"\"ゅ\" = \"ｭ\"",
   c%"\"ょ\" = \"ｮ\"",
   c%"\"ゎ\" = \"ﾜ\"",
   c%"\"ゕ\" = \"ｶ\"",
   c%"\"ゖ\" = \"ｹ\"",
   c%"\"．\" = \".\"",
   c%"\"，\" = \",\"",
   c%"\"。\" = \"｡\"",
   c%"\"・\" = \"･\"",
   c%"\"ー\" = \"ｰ\"",
   c%"\"゛\" = \"ﾞ\"",
   c%"\"゜\" = \"ﾟ\"",
   c%"\"、\" = \"､\"",
   c%"\"「\" = \"｢\"",
   c%"\"」\" = \"｣\"",
   c%""]

/-- The lines of /repo/assets/rule/kana_form.toml. -/
def kanaFormFileLines : List (List Str) :=
  [kanaFormFile0, kanaFormFile1, kanaFormFile2, kanaFormFile3, kanaFormFile4]

/-- The text of /repo/assets/rule/kana_form.toml. -/
def kanaFormFile : Str := joinLines kanaFormFileLines.flatten

end Cskk.Assets
