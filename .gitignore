.lake/
*.olean
