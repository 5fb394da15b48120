import Verif.Props.Board

/-
  The example configurations shipped with keyd that the machine of `Verif.Spec.Board` covers, word for word (/repo/examples).
-/

set_option autoImplicit false

namespace Keyd

/-- /repo/examples/capslock-esc-basic.conf -/
def basicText : Str := b!"# Usage: Place this file /etc/keyd/default.conf

# Causes `capslock` to behave as `control` when pressed
# and escape when tapped. Note that `control` is what
# keyd regards as a 'modifier layer'.
# See the man page for more details.

[ids]

*

[main]

capslock = overload(control, esc)
"

/-- /repo/examples/capslock-escape-with-vim-mode.conf -/
def vimModeText : Str := b!"# NOTE: to use this, rename this file to default.conf and put in /etc/keyd/

# Advanced use of capslock as a triple function key:
#
# - when 'capslock' is tapped (pressed + released), it behaves as ESC key
#
# - when 'capslock' is held, and used in combination with another key, it
#   behaves like a 'ctrl' key modifier (just like xcape)
#
# - when 'capslock' is held, and the 'space' key is tapped, we enter a 3rd
#   state for \"VIM mode\" where hjkl keys become arrow keys until capslock
#   is released.
#
[ids]
*

[main]

capslock = overload(ctrl_vim, esc)

# ctrl_vim modifier layer; inherits from 'Ctrl' modifier layer

[ctrl_vim:C]

space = swap(vim_mode)

# vim_mode modifier layer; also inherits from 'Ctrl' modifier layer

[vim_mode:C]

h = left
j = down
k = up
l = right
# forward word
w = C-right
# backward word
b = C-left
"

/-- /repo/examples/chromebook-linux.conf -/
def chromebookText : Str := b!"# NOTE: to use this, rename this file to default.conf or `your-chomebook-keyboard-name`.conf and put in /etc/keyd/

# This is an chromebook like configuration, this remaps function keys 1 through 10 to fall in line with the chromeos remapping
# while still allowing for full access to standard linux functions that rely on those function keys, such as TTY access or
# terminal programs

# Using this on an chromebook that has been modified to run linux will make the function keys work as designed originally 
# for the most part, F4 and F5 are mapped differently due to limitations of `keyd` and lack of functional support for their features
# in most linux desktop environments

# pressing meta+Fn will trigger that FN key
# pressing ctrl+alt+Fn will trigger that key stroke

[ids]
*

## Chromebook function keys
[main]
f1 = back
f2 = forward
f3 = refresh
f4 = print
f5 = A-tab 
f6 = brightnessdown
f7 = brightnessup
f8 = mute
f9 = volumedown
f10 = volumeup

## Allow F1-10 access through meta+fnX
[meta]
f1 = f1
f2 = f2
f3 = f3
f4 = f4
f5 = f5
f6 = f6
f7 = f7
f8 = f8
f9 = f9
f10 = f10

## Allow TTY access
[control+alt]
f1 = C-A-f1
f2 = C-A-f2
f3 = C-A-f3
f4 = C-A-f4
f5 = C-A-f5
f6 = C-A-f6
f7 = C-A-f7
f8 = C-A-f8
f9 = C-A-f9
f10 = C-A-f10
left = home
right = end

[control+alt]
up = home
down = end

[alt]
backspace = delete
up = pageup
down = pagedown
"

/-- /repo/examples/half-qwerty.conf -/
def halfQwertyText : Str := b!"# NOTE: to use this, rename this file to default.conf and put in /etc/keyd/
#
# Half-QWERTY emulation example. This is useful for one-handed typing.

[ids]

*

[main]

# Maps capslock to escape when pressed and control when held.
capslock = overload(control, esc)

# Space becomes a modifier when pressed in combination with another key,
# otherwise outputs a regular space character. When this modifier is used, the
# keys are mirrored to the other half of the keyboard.
space = overload(mirroring, space)

# Single quote becomes Ctrl when combined.
' = overload(control, ')

# Alt+Tab is a common combination for switcing windows. When typing with the
# right hand it requires pressing space+[+Alt. Adding F12 as another Tab makes
# it easier.
f12 = tab

[mirroring]
6 = 5
7 = 4
8 = 3
9 = 2
0 = 1
- = `

h = g
j = f
k = d
l = s
semicolon = a

y = t
u = r
i = e
o = w
p = q
[ = tab
] = tab
\\ = esc

n = b
m = v
, = c
. = x
/ = z

1 = 0
2 = 9
3 = 8
4 = 7
5 = 6

tab = delete
q = p
w = o
e = i
r = u
t = y

a = ;
s = l
d = k
f = j
g = h

z = /
x = .
c = ,
v = m
b = n

# TODO: Map space+capslock to return. The naive approach below does not work.
# capslock = return
"

/-- /repo/examples/macos.conf -/
def macosText : Str := b!"# NOTE: to use this, rename this file to default.conf and put in /etc/keyd/

# Mac-Like Configuration Example
#
# Uses \"Alt\" button to the left of spacebar as \"Cmd\" key
#
# Note:
#   This 'trick' generally requires that the press+release of the Meta
#   key will do nothing. On my system, I had to disable the \"overlay-key\"
#   in mutter to make it inert:
#     - `gsettings set org.gnome.mutter overlay-key ''`

[ids]
*

[main]

# Create a new \"Cmd\" button, with various Mac OS-like features below
leftalt = layer(meta_mac)

# Swap meta/alt
leftmeta = alt


# meta_mac modifier layer; inherits from 'Ctrl' modifier layer
#
# The main part! Using this layer, we can remap our new \"Cmd\" key to
# do almost everything our muscle memory might need...
[meta_mac:C]

# Meta-Space: Open the Launcher (a feature of gnome-shell)
# keybinding: ? how did we arrive at M-/ ?
space = M-/

# Switch directly to an open tab (e.g. Firefox, VS code)
1 = A-1
2 = A-2
3 = A-3
4 = A-4
5 = A-5
6 = A-6
7 = A-7
8 = A-8
9 = A-9

# Copy
c = C-insert
# Paste
v = S-insert
# Cut
x = S-delete

# Move cursor to beginning of line
left = home
# Move cursor to end of Line
right = end

# As soon as tab is pressed (but not yet released), we switch to the
# \"app_switch_state\" overlay where we can handle Meta-Backtick differently.
# Also, send a 'M-tab' key tap before entering app_switch_sate.
tab = swapm(app_switch_state, M-tab)

# Meta-Backtick: Switch to next window in the application group
# - A-f6 is the default binding for 'cycle-group' in gnome
# - keybinding: `gsettings get org.gnome.desktop.wm.keybindings cycle-group`
` = A-f6


# app_switch_state modifier layer; inherits from 'Meta' modifier layer
[app_switch_state:M]

# Meta-Tab: Switch to next application
# - keybinding: `gsettings get org.gnome.desktop.wm.keybindings switch-applications`
tab = M-tab
right = M-tab

# Meta-Backtick: Switch to previous application
# - keybinding: `gsettings get org.gnome.desktop.wm.keybindings switch-applications-backward`
` = M-S-tab
left = M-S-tab
"

/-- /repo/examples/nav-layer.conf -/
def navLayerText : Str := b!"# Goal:
#
# To create a vi like navigation layer accessible by holding capslock while holding capslock
# otherwise behave like the control key (when held) and escape when tapped.
#
# In essence we want:
#
#  - capslock+h = left
#  - capslock+j = down
#  - capslock+k = up
#  - capslock+l = right
#
#  - capslock+shift+h = C-left
#  - capslock+shift+l = C-right
#  - capslock+shift+j = C-down
#  - capslock+shift+k = C-up
#
#  - capslock = escape (when tapped)
#
# In all other instances capslock should behave as normal control:
#
#  - capslock+a = C-a
#  - capslock+b = C-b
#  - capslock+c = C-c
#  ...
#  - capslock+shift+i = C-S-i
#  - capslock+shift+k = C-S-k
#  ....

# This is achieved by creating a composite layer called [capslock+shift]
# which is activated whenever capslock and shift are simultaneously
# held.


[ids]
*

[main]
capslock = overload(capslock, esc)

[capslock:C]
h = left
j = down
k = up
l = right

# Activates when both capslock and shift is pressed
[capslock+shift]
h = C-left
j = C-down
k = C-up
l = C-right

"

theorem basic_simple : (textConfig basicText).map simpleB = some true := by
  set_option maxRecDepth 100000 in decide +kernel

theorem vimMode_simple : (textConfig vimModeText).map simpleB = some true := by
  set_option maxRecDepth 100000 in decide +kernel

theorem chromebook_simple : (textConfig chromebookText).map simpleB = some true := by
  set_option maxRecDepth 100000 in decide +kernel

theorem halfQwerty_simple : (textConfig halfQwertyText).map simpleB = some true := by
  set_option maxRecDepth 100000 in decide +kernel

theorem macos_simple : (textConfig macosText).map simpleB = some true := by
  set_option maxRecDepth 100000 in decide +kernel

theorem navLayer_simple : (textConfig navLayerText).map simpleB = some true := by
  set_option maxRecDepth 100000 in decide +kernel

/-- /repo/examples/extend-layer.conf -/
def extendText : Str := b!"# This example demonstrates how to implement a variant of the Extend layer. Notice how
# you can pin the layer down with the space bar if you need to  do complex operations
# using the fingers of both hands. Vim users might  prefer to bind left, down up and right
# to h, j, k and l respectively.

[ids]

*

[main]

capslock = overload(extend, capslock)

[extend]

q = overload(alt, escape)
y = pageup
u = home
i = up
o = end
p = insert
a = leftcontrol
s = leftshift
d = leftmeta
f = leftalt
h = pagedown
j = left
k = down
l = right
semicolon = delete
apostrophe = esc
n = compose
m = backspace
comma = space
dot = tab
slash = enter
space = overload(extend, capslock)
"

theorem extend_simple : (textConfig extendText).map simpleB = some true := by
  set_option maxRecDepth 100000 in decide +kernel

/-- Seven of the twelve example configurations are ones of the machine, as they are. -/
theorem C73_shipped : ∀ t ∈ [basicText, vimModeText, chromebookText, halfQwertyText, macosText, navLayerText, extendText], (textConfig t).map simpleB = some true := by
  intro t ht
  simp only [List.mem_cons, List.not_mem_nil, or_false] at ht
  rcases ht with rfl | rfl | rfl | rfl | rfl | rfl | rfl
  exacts [basic_simple, vimMode_simple, chromebook_simple, halfQwerty_simple, macos_simple, navLayer_simple, extend_simple]

/-- Capslock held with space: `h` is an arrow and `w` goes a word on, until capslock is released. Capslock tapped is escape, and with another key it is control. -/
theorem C73_vim : checkRun vimModeText [press 58 1, press 57 2, release 57 3, press 35 4, release 35 5, press 17 6, release 17 7, release 58 8, press 35 9, release 35 10, press 58 11,
    release 58 12, press 58 13, press 46 14, release 46 15, release 58 16] simpleB
    (fun k => decide (hostEvents (fun _ => false) k.outputs = [(105, true, []), (105, false, []), (106, true, [29]), (106, false, [29]), (35, true, []), (35, false, []), (1, true, []), (1, false, []), (46, true, [29]), (46, false, [29])])) = true := by
  set_option maxRecDepth 100000 in decide +kernel

/-- Alt with `c` copies; alt with tab, and tab again, goes through the windows with meta held down, and backwards with a backtick, until alt is released. -/
theorem C73_macos : checkRun macosText [press 56 1, press 46 2, release 46 3, press 15 4, release 15 5, press 15 6, release 15 7, press 41 8, release 41 9, release 56 10, press 30 11] simpleB
    (fun k => decide (hostEvents (fun _ => false) k.outputs = [(110, true, [29]), (110, false, [29]), (15, true, [125]), (15, false, [125]), (15, true, [125]), (15, false, [125]), (15, true, [42, 125]), (15, false, [42, 125]), (30, true, [])])) = true := by
  set_option maxRecDepth 100000 in decide +kernel

/-- The layer carousel of /repo/examples/layer-carousel.conf (but space is a plain layer key), and the other actions with a macro. -/
def carouselText : Str := b!"[main]
space = layer(numbers)
q = layerm(numbers, macro(x))
w = oneshotm(symbols, y)
e = togglem(functions, S-z)
r = clearm(C-c)
tab = overload(control, macro(k))
[numbers]
a = 1
leftshift = overload(shift, swap(symbols))
rightshift = overload(shift, swap(functions))
[functions]
a = f1
leftshift = overload(shift, swap(numbers))
rightshift = overload(shift, swap(symbols))
[symbols]
a = grave
s = swapm(numbers, b)
leftshift = overload(shift, swap(functions))
rightshift = overload(shift, swap(numbers))
"

/-- Space holds the numbers; right shift tapped changes to the functions, left shift back to the numbers, left shift again to the symbols; when space is released `a` is `a`. -/
theorem C73_carousel : checkRun carouselText [press 57 1, press 30 2, release 30 3, press 54 4, release 54 5, press 30 6, release 30 7, press 42 8, release 42 9, press 30 10, release 30 11, press 42 12,
    release 42 13, press 30 14, release 30 15, release 57 16, press 30 17, release 30 18] simpleB
    (fun k => decide (hostEvents (fun _ => false) k.outputs = [(2, true, []), (2, false, []), (59, true, []), (59, false, []), (2, true, []), (2, false, []), (41, true, []), (41, false, []), (30, true, []), (30, false, [])])) = true := by
  set_option maxRecDepth 100000 in decide +kernel

/-- `q` taps `x` and holds the numbers; `w` taps `y` and its one-shot layer becomes the numbers by `s`, which taps `b`; `e` taps Z and toggles the functions; `r` clears them and taps control c; tab tapped is a macro. -/
theorem C73_tapping : checkRun carouselText [press 16 1, press 30 2, release 30 3, release 16 4, press 17 5, release 17 6, press 31 7, release 31 8, press 30 9, release 30 10, press 18 20, release 18 21,
    press 30 22, press 19 23, press 15 30, release 15 31] simpleB
    (fun k => decide (hostEvents (fun _ => false) k.outputs = [(45, true, []), (45, false, []), (2, true, []), (2, false, []), (21, true, []), (21, false, []), (48, true, []), (48, false, []), (2, true, []), (2, false, []), (44, true, [42]), (44, false, [42]), (59, true, []), (59, false, []), (46, true, [29]), (46, false, [29]), (37, true, []), (37, false, [])])) = true := by
  set_option maxRecDepth 100000 in decide +kernel

/-- The extend layer: with capslock held, `a` is a left control one can hold, and `j` an arrow; tapped, it is capslock. -/
theorem C73_extend : checkRun extendText [press 58 1, press 30 2, press 36 3, release 36 4, release 30 5, release 58 6, press 58 7, release 58 8] simpleB
    (fun k => decide (hostEvents (fun _ => false) k.outputs = [(105, true, [29]), (105, false, [29]), (58, true, []), (58, false, [])])) = true := by
  set_option maxRecDepth 100000 in decide +kernel

/-- One-shot layers that last 100 ms, and a key that depends on how long ago the last one was. -/
def timedText : Str := b!"[global]
oneshot_timeout = 100
[main]
leftshift = oneshot(shift)
capslock = oneshot(nav)
space = overloadi(space, layer(nav), 150)
[nav]
h = left
"

/-- Shift tapped: the next `a` is shifted, but not if it comes after 100 ms; so for the layer, whose end keyd awakes for. Space right after another key is a space; after a pause it is the layer key. -/
theorem C73_timed : checkRun timedText [press 42 1, release 42 2, press 30 50, release 30 51, press 42 100, release 42 101, press 30 202, release 30 203, press 58 300, release 58 301, wakeup 401, press 35 402, release 35 403,
    press 57 500, release 57 501, press 57 700, press 35 701, release 35 702, release 57 703] simpleB
    (fun k => decide (hostEvents (fun _ => false) k.outputs = [(30, true, [42]), (30, false, [42]), (30, true, []), (30, false, []), (35, true, []), (35, false, []), (57, true, []), (57, false, []), (105, true, []), (105, false, [])])) = true := by
  set_option maxRecDepth 100000 in decide +kernel

end Keyd
