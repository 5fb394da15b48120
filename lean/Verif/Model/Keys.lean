import Verif.Model.Types

/-
  Model of /repo/src/keys.c and /repo/src/keys.h: key names, modifiers,
  modifier sets and key sequences.
-/

namespace Keyd

/-! Key code constants, keys.h:31-291 (generated from the `#define`s). -/

def KEYD.ESC : Code := 1
def KEYD.«1» : Code := 2
def KEYD.«2» : Code := 3
def KEYD.«3» : Code := 4
def KEYD.«4» : Code := 5
def KEYD.«5» : Code := 6
def KEYD.«6» : Code := 7
def KEYD.«7» : Code := 8
def KEYD.«8» : Code := 9
def KEYD.«9» : Code := 10
def KEYD.«0» : Code := 11
def KEYD.MINUS : Code := 12
def KEYD.EQUAL : Code := 13
def KEYD.BACKSPACE : Code := 14
def KEYD.TAB : Code := 15
def KEYD.Q : Code := 16
def KEYD.W : Code := 17
def KEYD.E : Code := 18
def KEYD.R : Code := 19
def KEYD.T : Code := 20
def KEYD.Y : Code := 21
def KEYD.U : Code := 22
def KEYD.I : Code := 23
def KEYD.O : Code := 24
def KEYD.P : Code := 25
def KEYD.LEFTBRACE : Code := 26
def KEYD.RIGHTBRACE : Code := 27
def KEYD.ENTER : Code := 28
def KEYD.LEFTCTRL : Code := 29
def KEYD.A : Code := 30
def KEYD.S : Code := 31
def KEYD.D : Code := 32
def KEYD.F : Code := 33
def KEYD.G : Code := 34
def KEYD.H : Code := 35
def KEYD.J : Code := 36
def KEYD.K : Code := 37
def KEYD.L : Code := 38
def KEYD.SEMICOLON : Code := 39
def KEYD.APOSTROPHE : Code := 40
def KEYD.GRAVE : Code := 41
def KEYD.LEFTSHIFT : Code := 42
def KEYD.BACKSLASH : Code := 43
def KEYD.Z : Code := 44
def KEYD.X : Code := 45
def KEYD.C : Code := 46
def KEYD.V : Code := 47
def KEYD.B : Code := 48
def KEYD.N : Code := 49
def KEYD.M : Code := 50
def KEYD.COMMA : Code := 51
def KEYD.DOT : Code := 52
def KEYD.SLASH : Code := 53
def KEYD.RIGHTSHIFT : Code := 54
def KEYD.KPASTERISK : Code := 55
def KEYD.LEFTALT : Code := 56
def KEYD.SPACE : Code := 57
def KEYD.CAPSLOCK : Code := 58
def KEYD.F1 : Code := 59
def KEYD.F2 : Code := 60
def KEYD.F3 : Code := 61
def KEYD.F4 : Code := 62
def KEYD.F5 : Code := 63
def KEYD.F6 : Code := 64
def KEYD.F7 : Code := 65
def KEYD.F8 : Code := 66
def KEYD.F9 : Code := 67
def KEYD.F10 : Code := 68
def KEYD.NUMLOCK : Code := 69
def KEYD.SCROLLLOCK : Code := 70
def KEYD.KP7 : Code := 71
def KEYD.KP8 : Code := 72
def KEYD.KP9 : Code := 73
def KEYD.KPMINUS : Code := 74
def KEYD.KP4 : Code := 75
def KEYD.KP5 : Code := 76
def KEYD.KP6 : Code := 77
def KEYD.KPPLUS : Code := 78
def KEYD.KP1 : Code := 79
def KEYD.KP2 : Code := 80
def KEYD.KP3 : Code := 81
def KEYD.KP0 : Code := 82
def KEYD.KPDOT : Code := 83
def KEYD.IS_LEVEL3_SHIFT : Code := 84
def KEYD.ZENKAKUHANKAKU : Code := 85
def KEYD.«102ND» : Code := 86
def KEYD.F11 : Code := 87
def KEYD.F12 : Code := 88
def KEYD.RO : Code := 89
def KEYD.KATAKANA : Code := 90
def KEYD.HIRAGANA : Code := 91
def KEYD.HENKAN : Code := 92
def KEYD.KATAKANAHIRAGANA : Code := 93
def KEYD.MUHENKAN : Code := 94
def KEYD.KPJPCOMMA : Code := 95
def KEYD.KPENTER : Code := 96
def KEYD.RIGHTCTRL : Code := 97
def KEYD.KPSLASH : Code := 98
def KEYD.SYSRQ : Code := 99
def KEYD.RIGHTALT : Code := 100
def KEYD.LINEFEED : Code := 101
def KEYD.HOME : Code := 102
def KEYD.UP : Code := 103
def KEYD.PAGEUP : Code := 104
def KEYD.LEFT : Code := 105
def KEYD.RIGHT : Code := 106
def KEYD.END : Code := 107
def KEYD.DOWN : Code := 108
def KEYD.PAGEDOWN : Code := 109
def KEYD.INSERT : Code := 110
def KEYD.DELETE : Code := 111
def KEYD.MACRO : Code := 112
def KEYD.MUTE : Code := 113
def KEYD.VOLUMEDOWN : Code := 114
def KEYD.VOLUMEUP : Code := 115
def KEYD.POWER : Code := 116
def KEYD.KPEQUAL : Code := 117
def KEYD.KPPLUSMINUS : Code := 118
def KEYD.PAUSE : Code := 119
def KEYD.SCALE : Code := 120
def KEYD.KPCOMMA : Code := 121
def KEYD.HANGEUL : Code := 122
def KEYD.HANJA : Code := 123
def KEYD.YEN : Code := 124
def KEYD.LEFTMETA : Code := 125
def KEYD.RIGHTMETA : Code := 126
def KEYD.COMPOSE : Code := 127
def KEYD.STOP : Code := 128
def KEYD.AGAIN : Code := 129
def KEYD.PROPS : Code := 130
def KEYD.UNDO : Code := 131
def KEYD.FRONT : Code := 132
def KEYD.COPY : Code := 133
def KEYD.OPEN : Code := 134
def KEYD.PASTE : Code := 135
def KEYD.FIND : Code := 136
def KEYD.CUT : Code := 137
def KEYD.HELP : Code := 138
def KEYD.MENU : Code := 139
def KEYD.CALC : Code := 140
def KEYD.SETUP : Code := 141
def KEYD.SLEEP : Code := 142
def KEYD.WAKEUP : Code := 143
def KEYD.FILE : Code := 144
def KEYD.SENDFILE : Code := 145
def KEYD.DELETEFILE : Code := 146
def KEYD.XFER : Code := 147
def KEYD.SCROLL_DOWN : Code := 148
def KEYD.SCROLL_UP : Code := 149
def KEYD.WWW : Code := 150
def KEYD.MSDOS : Code := 151
def KEYD.COFFEE : Code := 152
def KEYD.ROTATE_DISPLAY : Code := 153
def KEYD.CYCLEWINDOWS : Code := 154
def KEYD.MAIL : Code := 155
def KEYD.BOOKMARKS : Code := 156
def KEYD.COMPUTER : Code := 157
def KEYD.BACK : Code := 158
def KEYD.FORWARD : Code := 159
def KEYD.CLOSECD : Code := 160
def KEYD.EJECTCD : Code := 161
def KEYD.EJECTCLOSECD : Code := 162
def KEYD.NEXTSONG : Code := 163
def KEYD.PLAYPAUSE : Code := 164
def KEYD.PREVIOUSSONG : Code := 165
def KEYD.STOPCD : Code := 166
def KEYD.RECORD : Code := 167
def KEYD.REWIND : Code := 168
def KEYD.PHONE : Code := 169
def KEYD.ISO : Code := 170
def KEYD.CONFIG : Code := 171
def KEYD.HOMEPAGE : Code := 172
def KEYD.REFRESH : Code := 173
def KEYD.EXIT : Code := 174
def KEYD.MOVE : Code := 175
def KEYD.EDIT : Code := 176
def KEYD.ZOOM : Code := 177
def KEYD.KPLEFTPAREN : Code := 179
def KEYD.KPRIGHTPAREN : Code := 180
def KEYD.NEW : Code := 181
def KEYD.REDO : Code := 182
def KEYD.F13 : Code := 183
def KEYD.F14 : Code := 184
def KEYD.F15 : Code := 185
def KEYD.F16 : Code := 186
def KEYD.F17 : Code := 187
def KEYD.F18 : Code := 188
def KEYD.F19 : Code := 189
def KEYD.F20 : Code := 190
def KEYD.F21 : Code := 191
def KEYD.F22 : Code := 192
def KEYD.F23 : Code := 193
def KEYD.F24 : Code := 194
def KEYD.PLAYCD : Code := 200
def KEYD.PAUSECD : Code := 201
def KEYD.SCROLL_LEFT : Code := 202
def KEYD.SCROLL_RIGHT : Code := 203
def KEYD.DASHBOARD : Code := 204
def KEYD.SUSPEND : Code := 205
def KEYD.CLOSE : Code := 206
def KEYD.PLAY : Code := 207
def KEYD.FASTFORWARD : Code := 208
def KEYD.BASSBOOST : Code := 209
def KEYD.PRINT : Code := 210
def KEYD.HP : Code := 211
def KEYD.CAMERA : Code := 212
def KEYD.SOUND : Code := 213
def KEYD.QUESTION : Code := 214
def KEYD.EMAIL : Code := 215
def KEYD.CHAT : Code := 216
def KEYD.SEARCH : Code := 217
def KEYD.CONNECT : Code := 218
def KEYD.FINANCE : Code := 219
def KEYD.SPORT : Code := 220
def KEYD.SHOP : Code := 221
def KEYD.VOICECOMMAND : Code := 222
def KEYD.CANCEL : Code := 223
def KEYD.BRIGHTNESSDOWN : Code := 224
def KEYD.BRIGHTNESSUP : Code := 225
def KEYD.MEDIA : Code := 226
def KEYD.SWITCHVIDEOMODE : Code := 227
def KEYD.KBDILLUMTOGGLE : Code := 228
def KEYD.KBDILLUMDOWN : Code := 229
def KEYD.KBDILLUMUP : Code := 230
def KEYD.SEND : Code := 231
def KEYD.REPLY : Code := 232
def KEYD.FORWARDMAIL : Code := 233
def KEYD.SAVE : Code := 234
def KEYD.DOCUMENTS : Code := 235
def KEYD.BATTERY : Code := 236
def KEYD.BLUETOOTH : Code := 237
def KEYD.WLAN : Code := 238
def KEYD.UWB : Code := 239
def KEYD.UNKNOWN : Code := 240
def KEYD.VIDEO_NEXT : Code := 241
def KEYD.VIDEO_PREV : Code := 242
def KEYD.BRIGHTNESS_CYCLE : Code := 243
def KEYD.BRIGHTNESS_AUTO : Code := 244
def KEYD.DISPLAY_OFF : Code := 245
def KEYD.WWAN : Code := 246
def KEYD.RFKILL : Code := 247
def KEYD.MICMUTE : Code := 248
def KEYD.NOOP : Code := 195
def KEYD.EXTERNAL_MOUSE_BUTTON : Code := 196
def KEYD.CHORD_1 : Code := 197
def KEYD.CHORD_2 : Code := 198
def KEYD.CHORD_MAX : Code := 199
def KEYD.LEFT_MOUSE : Code := 249
def KEYD.MIDDLE_MOUSE : Code := 250
def KEYD.RIGHT_MOUSE : Code := 251
def KEYD.MOUSE_1 : Code := 252
def KEYD.MOUSE_2 : Code := 253
def KEYD.MOUSE_BACK : Code := 178
def KEYD.FN : Code := 254
def KEYD.MOUSE_FORWARD : Code := 255

/-- `MOD_*` masks, keys.h:13-17. -/
def MOD_ALT_GR : UInt8 := 0x10
def MOD_CTRL : UInt8 := 0x8
def MOD_SHIFT : UInt8 := 0x4
def MOD_SUPER : UInt8 := 0x2
def MOD_ALT : UInt8 := 0x1

/-- `modifiers[]`, keys.c:10-16: mask and key, in table order. -/
def modifiers : List (UInt8 × Code) :=
  [(0x1, 56), (0x10, 100), (0x4, 42), (0x2, 125), (0x8, 29)]

/-- `struct keycode_table_ent`, keys.h:21-25 (`NULL` is `none`). -/
structure KeyEnt where
  name : Option Str
  alt : Option Str
  shifted : Option Str
deriving DecidableEq, Repr, Inhabited

/-- `keycode_table[256]`, keys.c:18-270 (generated from the source; the
trailing comment gives the code and source line). -/
def keycodeTable : List KeyEnt := [
  ⟨.none, .none, .none⟩, -- 0
  ⟨(.some b!"esc"), (.some b!"escape"), .none⟩, -- 1 (keys.c:19)
  ⟨(.some b!"1"), .none, (.some b!"!")⟩, -- 2 (keys.c:20)
  ⟨(.some b!"2"), .none, (.some b!"@")⟩, -- 3 (keys.c:21)
  ⟨(.some b!"3"), .none, (.some b!"#")⟩, -- 4 (keys.c:22)
  ⟨(.some b!"4"), .none, (.some b!"$")⟩, -- 5 (keys.c:23)
  ⟨(.some b!"5"), .none, (.some b!"%")⟩, -- 6 (keys.c:24)
  ⟨(.some b!"6"), .none, (.some b!"^")⟩, -- 7 (keys.c:25)
  ⟨(.some b!"7"), .none, (.some b!"&")⟩, -- 8 (keys.c:26)
  ⟨(.some b!"8"), .none, (.some b!"*")⟩, -- 9 (keys.c:27)
  ⟨(.some b!"9"), .none, (.some b!"(")⟩, -- 10 (keys.c:28)
  ⟨(.some b!"0"), .none, (.some b!")")⟩, -- 11 (keys.c:29)
  ⟨(.some b!"-"), (.some b!"minus"), (.some b!"_")⟩, -- 12 (keys.c:30)
  ⟨(.some b!"="), (.some b!"equal"), (.some b!"+")⟩, -- 13 (keys.c:31)
  ⟨(.some b!"backspace"), .none, .none⟩, -- 14 (keys.c:32)
  ⟨(.some b!"tab"), .none, .none⟩, -- 15 (keys.c:33)
  ⟨(.some b!"q"), .none, (.some b!"Q")⟩, -- 16 (keys.c:34)
  ⟨(.some b!"w"), .none, (.some b!"W")⟩, -- 17 (keys.c:35)
  ⟨(.some b!"e"), .none, (.some b!"E")⟩, -- 18 (keys.c:36)
  ⟨(.some b!"r"), .none, (.some b!"R")⟩, -- 19 (keys.c:37)
  ⟨(.some b!"t"), .none, (.some b!"T")⟩, -- 20 (keys.c:38)
  ⟨(.some b!"y"), .none, (.some b!"Y")⟩, -- 21 (keys.c:39)
  ⟨(.some b!"u"), .none, (.some b!"U")⟩, -- 22 (keys.c:40)
  ⟨(.some b!"i"), .none, (.some b!"I")⟩, -- 23 (keys.c:41)
  ⟨(.some b!"o"), .none, (.some b!"O")⟩, -- 24 (keys.c:42)
  ⟨(.some b!"p"), .none, (.some b!"P")⟩, -- 25 (keys.c:43)
  ⟨(.some b!"["), (.some b!"leftbrace"), (.some b!"{")⟩, -- 26 (keys.c:44)
  ⟨(.some b!"]"), (.some b!"rightbrace"), (.some b!"}")⟩, -- 27 (keys.c:45)
  ⟨(.some b!"enter"), .none, .none⟩, -- 28 (keys.c:46)
  ⟨(.some b!"leftcontrol"), (.some b!""), .none⟩, -- 29 (keys.c:47)
  ⟨(.some b!"a"), .none, (.some b!"A")⟩, -- 30 (keys.c:49)
  ⟨(.some b!"s"), .none, (.some b!"S")⟩, -- 31 (keys.c:50)
  ⟨(.some b!"d"), .none, (.some b!"D")⟩, -- 32 (keys.c:51)
  ⟨(.some b!"f"), .none, (.some b!"F")⟩, -- 33 (keys.c:52)
  ⟨(.some b!"g"), .none, (.some b!"G")⟩, -- 34 (keys.c:53)
  ⟨(.some b!"h"), .none, (.some b!"H")⟩, -- 35 (keys.c:54)
  ⟨(.some b!"j"), .none, (.some b!"J")⟩, -- 36 (keys.c:55)
  ⟨(.some b!"k"), .none, (.some b!"K")⟩, -- 37 (keys.c:56)
  ⟨(.some b!"l"), .none, (.some b!"L")⟩, -- 38 (keys.c:57)
  ⟨(.some b!";"), (.some b!"semicolon"), (.some b!":")⟩, -- 39 (keys.c:58)
  ⟨(.some b!"'"), (.some b!"apostrophe"), (.some b!"\"")⟩, -- 40 (keys.c:59)
  ⟨(.some b!"`"), (.some b!"grave"), (.some b!"~")⟩, -- 41 (keys.c:60)
  ⟨(.some b!"leftshift"), (.some b!""), .none⟩, -- 42 (keys.c:61)
  ⟨(.some b!"\\"), (.some b!"backslash"), (.some b!"|")⟩, -- 43 (keys.c:62)
  ⟨(.some b!"z"), .none, (.some b!"Z")⟩, -- 44 (keys.c:63)
  ⟨(.some b!"x"), .none, (.some b!"X")⟩, -- 45 (keys.c:64)
  ⟨(.some b!"c"), .none, (.some b!"C")⟩, -- 46 (keys.c:65)
  ⟨(.some b!"v"), .none, (.some b!"V")⟩, -- 47 (keys.c:66)
  ⟨(.some b!"b"), .none, (.some b!"B")⟩, -- 48 (keys.c:67)
  ⟨(.some b!"n"), .none, (.some b!"N")⟩, -- 49 (keys.c:68)
  ⟨(.some b!"m"), .none, (.some b!"M")⟩, -- 50 (keys.c:69)
  ⟨(.some b!","), (.some b!"comma"), (.some b!"<")⟩, -- 51 (keys.c:70)
  ⟨(.some b!"."), (.some b!"dot"), (.some b!">")⟩, -- 52 (keys.c:71)
  ⟨(.some b!"/"), (.some b!"slash"), (.some b!"?")⟩, -- 53 (keys.c:72)
  ⟨(.some b!"rightshift"), .none, .none⟩, -- 54 (keys.c:73)
  ⟨(.some b!"kpasterisk"), .none, .none⟩, -- 55 (keys.c:74)
  ⟨(.some b!"leftalt"), (.some b!""), .none⟩, -- 56 (keys.c:75)
  ⟨(.some b!"space"), .none, .none⟩, -- 57 (keys.c:76)
  ⟨(.some b!"capslock"), .none, .none⟩, -- 58 (keys.c:77)
  ⟨(.some b!"f1"), .none, .none⟩, -- 59 (keys.c:78)
  ⟨(.some b!"f2"), .none, .none⟩, -- 60 (keys.c:79)
  ⟨(.some b!"f3"), .none, .none⟩, -- 61 (keys.c:80)
  ⟨(.some b!"f4"), .none, .none⟩, -- 62 (keys.c:81)
  ⟨(.some b!"f5"), .none, .none⟩, -- 63 (keys.c:82)
  ⟨(.some b!"f6"), .none, .none⟩, -- 64 (keys.c:83)
  ⟨(.some b!"f7"), .none, .none⟩, -- 65 (keys.c:84)
  ⟨(.some b!"f8"), .none, .none⟩, -- 66 (keys.c:85)
  ⟨(.some b!"f9"), .none, .none⟩, -- 67 (keys.c:86)
  ⟨(.some b!"f10"), .none, .none⟩, -- 68 (keys.c:87)
  ⟨(.some b!"numlock"), .none, .none⟩, -- 69 (keys.c:88)
  ⟨(.some b!"scrolllock"), .none, .none⟩, -- 70 (keys.c:89)
  ⟨(.some b!"kp7"), .none, .none⟩, -- 71 (keys.c:90)
  ⟨(.some b!"kp8"), .none, .none⟩, -- 72 (keys.c:91)
  ⟨(.some b!"kp9"), .none, .none⟩, -- 73 (keys.c:92)
  ⟨(.some b!"kpminus"), .none, .none⟩, -- 74 (keys.c:93)
  ⟨(.some b!"kp4"), .none, .none⟩, -- 75 (keys.c:94)
  ⟨(.some b!"kp5"), .none, .none⟩, -- 76 (keys.c:95)
  ⟨(.some b!"kp6"), .none, .none⟩, -- 77 (keys.c:96)
  ⟨(.some b!"kpplus"), .none, .none⟩, -- 78 (keys.c:97)
  ⟨(.some b!"kp1"), .none, .none⟩, -- 79 (keys.c:98)
  ⟨(.some b!"kp2"), .none, .none⟩, -- 80 (keys.c:99)
  ⟨(.some b!"kp3"), .none, .none⟩, -- 81 (keys.c:100)
  ⟨(.some b!"kp0"), .none, .none⟩, -- 82 (keys.c:101)
  ⟨(.some b!"kpdot"), .none, .none⟩, -- 83 (keys.c:102)
  ⟨(.some b!"iso-level3-shift"), .none, .none⟩, -- 84 (keys.c:48)
  ⟨(.some b!"zenkakuhankaku"), .none, .none⟩, -- 85 (keys.c:103)
  ⟨(.some b!"102nd"), .none, .none⟩, -- 86 (keys.c:104)
  ⟨(.some b!"f11"), .none, .none⟩, -- 87 (keys.c:105)
  ⟨(.some b!"f12"), .none, .none⟩, -- 88 (keys.c:106)
  ⟨(.some b!"ro"), .none, .none⟩, -- 89 (keys.c:107)
  ⟨(.some b!"katakana"), .none, .none⟩, -- 90 (keys.c:108)
  ⟨(.some b!"hiragana"), .none, .none⟩, -- 91 (keys.c:109)
  ⟨(.some b!"henkan"), .none, .none⟩, -- 92 (keys.c:110)
  ⟨(.some b!"katakanahiragana"), .none, .none⟩, -- 93 (keys.c:111)
  ⟨(.some b!"muhenkan"), .none, .none⟩, -- 94 (keys.c:112)
  ⟨(.some b!"kpjpcomma"), .none, .none⟩, -- 95 (keys.c:113)
  ⟨(.some b!"kpenter"), .none, .none⟩, -- 96 (keys.c:114)
  ⟨(.some b!"rightcontrol"), .none, .none⟩, -- 97 (keys.c:115)
  ⟨(.some b!"kpslash"), .none, .none⟩, -- 98 (keys.c:116)
  ⟨(.some b!"sysrq"), .none, .none⟩, -- 99 (keys.c:117)
  ⟨(.some b!"rightalt"), .none, .none⟩, -- 100 (keys.c:118)
  ⟨(.some b!"linefeed"), .none, .none⟩, -- 101 (keys.c:119)
  ⟨(.some b!"home"), .none, .none⟩, -- 102 (keys.c:120)
  ⟨(.some b!"up"), .none, .none⟩, -- 103 (keys.c:121)
  ⟨(.some b!"pageup"), .none, .none⟩, -- 104 (keys.c:122)
  ⟨(.some b!"left"), .none, .none⟩, -- 105 (keys.c:123)
  ⟨(.some b!"right"), .none, .none⟩, -- 106 (keys.c:124)
  ⟨(.some b!"end"), .none, .none⟩, -- 107 (keys.c:125)
  ⟨(.some b!"down"), .none, .none⟩, -- 108 (keys.c:126)
  ⟨(.some b!"pagedown"), .none, .none⟩, -- 109 (keys.c:127)
  ⟨(.some b!"insert"), .none, .none⟩, -- 110 (keys.c:128)
  ⟨(.some b!"delete"), .none, .none⟩, -- 111 (keys.c:129)
  ⟨(.some b!"macro"), .none, .none⟩, -- 112 (keys.c:130)
  ⟨(.some b!"mute"), .none, .none⟩, -- 113 (keys.c:131)
  ⟨(.some b!"volumedown"), .none, .none⟩, -- 114 (keys.c:132)
  ⟨(.some b!"volumeup"), .none, .none⟩, -- 115 (keys.c:133)
  ⟨(.some b!"power"), .none, .none⟩, -- 116 (keys.c:134)
  ⟨(.some b!"kpequal"), .none, .none⟩, -- 117 (keys.c:135)
  ⟨(.some b!"kpplusminus"), .none, .none⟩, -- 118 (keys.c:136)
  ⟨(.some b!"pause"), .none, .none⟩, -- 119 (keys.c:137)
  ⟨(.some b!"scale"), .none, .none⟩, -- 120 (keys.c:138)
  ⟨(.some b!"kpcomma"), .none, .none⟩, -- 121 (keys.c:139)
  ⟨(.some b!"hangeul"), .none, .none⟩, -- 122 (keys.c:140)
  ⟨(.some b!"hanja"), .none, .none⟩, -- 123 (keys.c:141)
  ⟨(.some b!"yen"), .none, .none⟩, -- 124 (keys.c:142)
  ⟨(.some b!"leftmeta"), (.some b!""), .none⟩, -- 125 (keys.c:143)
  ⟨(.some b!"rightmeta"), .none, .none⟩, -- 126 (keys.c:144)
  ⟨(.some b!"compose"), .none, .none⟩, -- 127 (keys.c:145)
  ⟨(.some b!"stop"), .none, .none⟩, -- 128 (keys.c:146)
  ⟨(.some b!"again"), .none, .none⟩, -- 129 (keys.c:147)
  ⟨(.some b!"props"), .none, .none⟩, -- 130 (keys.c:148)
  ⟨(.some b!"undo"), .none, .none⟩, -- 131 (keys.c:149)
  ⟨(.some b!"front"), .none, .none⟩, -- 132 (keys.c:150)
  ⟨(.some b!"copy"), .none, .none⟩, -- 133 (keys.c:151)
  ⟨(.some b!"open"), .none, .none⟩, -- 134 (keys.c:152)
  ⟨(.some b!"paste"), .none, .none⟩, -- 135 (keys.c:153)
  ⟨(.some b!"find"), .none, .none⟩, -- 136 (keys.c:154)
  ⟨(.some b!"cut"), .none, .none⟩, -- 137 (keys.c:155)
  ⟨(.some b!"help"), .none, .none⟩, -- 138 (keys.c:156)
  ⟨(.some b!"menu"), .none, .none⟩, -- 139 (keys.c:157)
  ⟨(.some b!"calc"), .none, .none⟩, -- 140 (keys.c:158)
  ⟨(.some b!"setup"), .none, .none⟩, -- 141 (keys.c:159)
  ⟨(.some b!"sleep"), .none, .none⟩, -- 142 (keys.c:160)
  ⟨(.some b!"wakeup"), .none, .none⟩, -- 143 (keys.c:161)
  ⟨(.some b!"file"), .none, .none⟩, -- 144 (keys.c:162)
  ⟨(.some b!"sendfile"), .none, .none⟩, -- 145 (keys.c:163)
  ⟨(.some b!"deletefile"), .none, .none⟩, -- 146 (keys.c:164)
  ⟨(.some b!"xfer"), .none, .none⟩, -- 147 (keys.c:165)
  ⟨(.some b!"scrolldown"), .none, .none⟩, -- 148 (keys.c:166)
  ⟨(.some b!"scrollup"), .none, .none⟩, -- 149 (keys.c:167)
  ⟨(.some b!"www"), .none, .none⟩, -- 150 (keys.c:168)
  ⟨(.some b!"msdos"), .none, .none⟩, -- 151 (keys.c:169)
  ⟨(.some b!"coffee"), .none, .none⟩, -- 152 (keys.c:170)
  ⟨(.some b!"display"), .none, .none⟩, -- 153 (keys.c:171)
  ⟨(.some b!"cyclewindows"), .none, .none⟩, -- 154 (keys.c:172)
  ⟨(.some b!"mail"), .none, .none⟩, -- 155 (keys.c:173)
  ⟨(.some b!"bookmarks"), .none, .none⟩, -- 156 (keys.c:174)
  ⟨(.some b!"computer"), .none, .none⟩, -- 157 (keys.c:175)
  ⟨(.some b!"back"), .none, .none⟩, -- 158 (keys.c:176)
  ⟨(.some b!"forward"), .none, .none⟩, -- 159 (keys.c:177)
  ⟨(.some b!"closecd"), .none, .none⟩, -- 160 (keys.c:178)
  ⟨(.some b!"ejectcd"), .none, .none⟩, -- 161 (keys.c:179)
  ⟨(.some b!"ejectclosecd"), .none, .none⟩, -- 162 (keys.c:180)
  ⟨(.some b!"nextsong"), .none, .none⟩, -- 163 (keys.c:181)
  ⟨(.some b!"playpause"), .none, .none⟩, -- 164 (keys.c:182)
  ⟨(.some b!"previoussong"), .none, .none⟩, -- 165 (keys.c:183)
  ⟨(.some b!"stopcd"), .none, .none⟩, -- 166 (keys.c:184)
  ⟨(.some b!"record"), .none, .none⟩, -- 167 (keys.c:185)
  ⟨(.some b!"rewind"), .none, .none⟩, -- 168 (keys.c:186)
  ⟨(.some b!"phone"), .none, .none⟩, -- 169 (keys.c:187)
  ⟨(.some b!"iso"), .none, .none⟩, -- 170 (keys.c:188)
  ⟨(.some b!"config"), .none, .none⟩, -- 171 (keys.c:189)
  ⟨(.some b!"homepage"), .none, .none⟩, -- 172 (keys.c:190)
  ⟨(.some b!"refresh"), .none, .none⟩, -- 173 (keys.c:191)
  ⟨(.some b!"exit"), .none, .none⟩, -- 174 (keys.c:192)
  ⟨(.some b!"move"), .none, .none⟩, -- 175 (keys.c:193)
  ⟨(.some b!"edit"), .none, .none⟩, -- 176 (keys.c:194)
  ⟨(.some b!"zoom"), .none, .none⟩, -- 177 (keys.c:268)
  ⟨(.some b!"mouseback"), .none, .none⟩, -- 178 (keys.c:265)
  ⟨(.some b!"kpleftparen"), .none, .none⟩, -- 179 (keys.c:195)
  ⟨(.some b!"kprightparen"), .none, .none⟩, -- 180 (keys.c:196)
  ⟨(.some b!"new"), .none, .none⟩, -- 181 (keys.c:197)
  ⟨(.some b!"redo"), .none, .none⟩, -- 182 (keys.c:198)
  ⟨(.some b!"f13"), .none, .none⟩, -- 183 (keys.c:199)
  ⟨(.some b!"f14"), .none, .none⟩, -- 184 (keys.c:200)
  ⟨(.some b!"f15"), .none, .none⟩, -- 185 (keys.c:201)
  ⟨(.some b!"f16"), .none, .none⟩, -- 186 (keys.c:202)
  ⟨(.some b!"f17"), .none, .none⟩, -- 187 (keys.c:203)
  ⟨(.some b!"f18"), .none, .none⟩, -- 188 (keys.c:204)
  ⟨(.some b!"f19"), .none, .none⟩, -- 189 (keys.c:205)
  ⟨(.some b!"f20"), .none, .none⟩, -- 190 (keys.c:206)
  ⟨(.some b!"f21"), (.some b!"prog1"), .none⟩, -- 191 (keys.c:207)
  ⟨(.some b!"f22"), (.some b!"prog2"), .none⟩, -- 192 (keys.c:208)
  ⟨(.some b!"f23"), (.some b!"prog3"), .none⟩, -- 193 (keys.c:209)
  ⟨(.some b!"f24"), (.some b!"prog4"), .none⟩, -- 194 (keys.c:210)
  ⟨(.some b!"noop"), .none, .none⟩, -- 195 (keys.c:269)
  ⟨.none, .none, .none⟩, -- 196
  ⟨.none, .none, .none⟩, -- 197
  ⟨.none, .none, .none⟩, -- 198
  ⟨.none, .none, .none⟩, -- 199
  ⟨(.some b!"playcd"), .none, .none⟩, -- 200 (keys.c:211)
  ⟨(.some b!"pausecd"), .none, .none⟩, -- 201 (keys.c:212)
  ⟨(.some b!"scrollleft"), .none, .none⟩, -- 202 (keys.c:214)
  ⟨(.some b!"scrollright"), .none, .none⟩, -- 203 (keys.c:213)
  ⟨(.some b!"dashboard"), .none, .none⟩, -- 204 (keys.c:215)
  ⟨(.some b!"suspend"), .none, .none⟩, -- 205 (keys.c:216)
  ⟨(.some b!"close"), .none, .none⟩, -- 206 (keys.c:217)
  ⟨(.some b!"play"), .none, .none⟩, -- 207 (keys.c:218)
  ⟨(.some b!"fastforward"), .none, .none⟩, -- 208 (keys.c:219)
  ⟨(.some b!"bassboost"), .none, .none⟩, -- 209 (keys.c:220)
  ⟨(.some b!"print"), .none, .none⟩, -- 210 (keys.c:221)
  ⟨(.some b!"hp"), .none, .none⟩, -- 211 (keys.c:222)
  ⟨(.some b!"camera"), .none, .none⟩, -- 212 (keys.c:223)
  ⟨(.some b!"sound"), .none, .none⟩, -- 213 (keys.c:224)
  ⟨(.some b!"question"), .none, .none⟩, -- 214 (keys.c:225)
  ⟨(.some b!"email"), .none, .none⟩, -- 215 (keys.c:226)
  ⟨(.some b!"chat"), .none, .none⟩, -- 216 (keys.c:227)
  ⟨(.some b!"search"), .none, .none⟩, -- 217 (keys.c:228)
  ⟨(.some b!"connect"), .none, .none⟩, -- 218 (keys.c:229)
  ⟨(.some b!"finance"), .none, .none⟩, -- 219 (keys.c:230)
  ⟨(.some b!"sport"), .none, .none⟩, -- 220 (keys.c:231)
  ⟨(.some b!"shop"), .none, .none⟩, -- 221 (keys.c:232)
  ⟨(.some b!"voicecommand"), .none, .none⟩, -- 222 (keys.c:233)
  ⟨(.some b!"cancel"), .none, .none⟩, -- 223 (keys.c:234)
  ⟨(.some b!"brightnessdown"), .none, .none⟩, -- 224 (keys.c:235)
  ⟨(.some b!"brightnessup"), .none, .none⟩, -- 225 (keys.c:236)
  ⟨(.some b!"media"), .none, .none⟩, -- 226 (keys.c:237)
  ⟨(.some b!"switchvideomode"), .none, .none⟩, -- 227 (keys.c:238)
  ⟨(.some b!"kbdillumtoggle"), .none, .none⟩, -- 228 (keys.c:239)
  ⟨(.some b!"kbdillumdown"), .none, .none⟩, -- 229 (keys.c:240)
  ⟨(.some b!"kbdillumup"), .none, .none⟩, -- 230 (keys.c:241)
  ⟨(.some b!"send"), .none, .none⟩, -- 231 (keys.c:242)
  ⟨(.some b!"reply"), .none, .none⟩, -- 232 (keys.c:243)
  ⟨(.some b!"forwardmail"), .none, .none⟩, -- 233 (keys.c:244)
  ⟨(.some b!"save"), .none, .none⟩, -- 234 (keys.c:245)
  ⟨(.some b!"documents"), .none, .none⟩, -- 235 (keys.c:246)
  ⟨(.some b!"battery"), .none, .none⟩, -- 236 (keys.c:247)
  ⟨(.some b!"bluetooth"), .none, .none⟩, -- 237 (keys.c:248)
  ⟨(.some b!"wlan"), .none, .none⟩, -- 238 (keys.c:249)
  ⟨(.some b!"uwb"), .none, .none⟩, -- 239 (keys.c:250)
  ⟨(.some b!"unknown"), .none, .none⟩, -- 240 (keys.c:251)
  ⟨(.some b!"next"), .none, .none⟩, -- 241 (keys.c:252)
  ⟨(.some b!"prev"), .none, .none⟩, -- 242 (keys.c:253)
  ⟨(.some b!"cycle"), .none, .none⟩, -- 243 (keys.c:254)
  ⟨(.some b!"auto"), .none, .none⟩, -- 244 (keys.c:255)
  ⟨(.some b!"off"), .none, .none⟩, -- 245 (keys.c:256)
  ⟨(.some b!"wwan"), .none, .none⟩, -- 246 (keys.c:257)
  ⟨(.some b!"rfkill"), .none, .none⟩, -- 247 (keys.c:258)
  ⟨(.some b!"micmute"), .none, .none⟩, -- 248 (keys.c:259)
  ⟨(.some b!"leftmouse"), .none, .none⟩, -- 249 (keys.c:260)
  ⟨(.some b!"middlemouse"), .none, .none⟩, -- 250 (keys.c:262)
  ⟨(.some b!"rightmouse"), .none, .none⟩, -- 251 (keys.c:261)
  ⟨(.some b!"mouse1"), .none, .none⟩, -- 252 (keys.c:263)
  ⟨(.some b!"mouse2"), .none, .none⟩, -- 253 (keys.c:264)
  ⟨(.some b!"fn"), .none, .none⟩, -- 254 (keys.c:267)
  ⟨(.some b!"mouseforward"), .none, .none⟩ -- 255 (keys.c:266)
]

/-- One modifier-prefix letter, the `switch` shared by keys.c:314-333 and
keys.c:357-376. -/
def modLetter (c : UInt8) : Option UInt8 :=
  if c = 67 then some MOD_CTRL        -- 'C'
  else if c = 77 then some MOD_SUPER  -- 'M'
  else if c = 65 then some MOD_ALT    -- 'A'
  else if c = 83 then some MOD_SHIFT  -- 'S'
  else if c = 71 then some MOD_ALT_GR -- 'G'
  else none

/-- `parse_modset`, keys.c:309-344. `none` is the return value -1. -/
def parseModsetAux : Str → UInt8 → Option UInt8
  | [], acc => some acc
  | [c], acc => (modLetter c).map (acc ||| ·)
  | c :: c1 :: rest, acc =>
    match modLetter c with
    | none => none
    | some m => if c1 = 45 then parseModsetAux rest (acc ||| m) else none

def parseModset (s : Str) : Option UInt8 := parseModsetAux s 0

/-- `modstring`, keys.c:272-307: letters joined with dashes. -/
def modstringParts (mods : UInt8) : Str :=
  (if MOD_CTRL &&& mods ≠ 0 then [67, 45] else []) ++
  (if MOD_SUPER &&& mods ≠ 0 then [77, 45] else []) ++
  (if MOD_ALT_GR &&& mods ≠ 0 then [71, 45] else []) ++
  (if MOD_SHIFT &&& mods ≠ 0 then [83, 45] else []) ++
  (if MOD_ALT &&& mods ≠ 0 then [65, 45] else [])

def modstring (mods : UInt8) : Str := (modstringParts mods).dropLast

/-- The prefix loop of `parse_key_sequence`, keys.c:346-379. Returns the
remaining string and the modifiers, or `none` for -1. Simplification: after a
trailing `X-` the C loop reads `c[1]` one byte beyond the terminating NUL
(keys.c:356); the model takes that byte to be different from '-'. -/
def keySeqPrefix : Str → UInt8 → Option (Str × UInt8)
  | c :: c1 :: rest, acc =>
    if c1 = 45 then
      match modLetter c with
      | none => none
      | some m => keySeqPrefix rest (acc ||| m)
    else some (c :: c1 :: rest, acc)
  | s, acc => some (s, acc)

/-- The table scan of `parse_key_sequence`, keys.c:381-409, starting with the
entry for code `i`. The result's flag says that the shifted name matched. -/
def scanSeq (s : Str) : List KeyEnt → Nat → Option (Nat × Bool)
  | [], _ => none
  | e :: es, i =>
    if e.name.isSome then
      if e.shifted = some s then some (i, true)
      else if e.name = some s ∨ e.alt = some s then some (i, false)
      else scanSeq s es (i+1)
    else scanSeq s es (i+1)

/-- `parse_key_sequence`, keys.c:346-412. `none` is the return value -1. -/
def parseKeySequence (s : Str) : Option (Code × UInt8) :=
  if s = [] then none else
  match keySeqPrefix s 0 with
  | none => none
  | some (rest, mods) =>
    match scanSeq rest keycodeTable 0 with
    | none => none
    | some (i, true) => some (UInt8.ofNat i, mods ||| MOD_SHIFT)
    | some (i, false) => some (UInt8.ofNat i, mods)

/-- The table scan of `lookup_keycode`, config.c:190-198. -/
def scanKey (s : Str) : List KeyEnt → Nat → Option Nat
  | [], _ => none
  | e :: es, i =>
    if e.name.isSome ∧ (e.name = some s ∨ e.alt = some s) then some i
    else scanKey s es (i+1)

/-- `lookup_keycode`, config.c:186-201: 0 when there is no such key. -/
def lookupKeycode (s : Str) : Code :=
  match scanKey s keycodeTable 0 with
  | none => 0
  | some i => UInt8.ofNat i

end Keyd
